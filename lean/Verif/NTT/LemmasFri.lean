import Verif.NTT.ModelFri
import Verif.NTT.SpecFri
import Verif.NTT.PropsNtt
import Verif.Math.LemmasMle
import Verif.Math.PropsTensor
import Mathlib.Tactic.Module

/-! Lemmas about FRI folding. -/

set_option linter.unusedSectionVars false

namespace Verif.NTT

open Finset Verif.NTT.Spec Verif.Mle
open Verif.Subspace (BinarySubspace)

variable {F E : Type*} [Field F] [DecidableEq F] [Field E] [Algebra F E]

theorem domain_cons (h2 : (1 : F) + 1 = 0) {β : List F} (hind : Independent β) {l : Nat} (hl : l + 1 ≤ β.length) :
    ∃ τ, domainBasis β (l + 1) = 1 :: τ ∧ (domainBasis β (l + 1)).tail = τ := by
  have h1 := domainBasis_one h2 hind hl (by omega)
  have hlen := domainBasis_length hl
  cases hg : domainBasis β (l + 1) with
  | nil => rw [hg] at hlen; simp at hlen
  | cons a τ =>
    rw [hg] at h1
    refine ⟨τ, ?_, rfl⟩
    rw [show a = 1 from h1]

theorem normPoly_step (h2 : (1 : F) + 1 = 0) {β : List F} (hind : Independent β) {l : Nat} (hl : l + 1 ≤ β.length)
    (p i : Nat) (hi : i < l) :
    normPoly (domainBasis β (l + 1)) (i + 1) (point (domainBasis β (l + 1)) p) =
      normPoly (domainBasis β l) i (point (domainBasis β l) (p / 2)) := by
  have hpt : ∀ d, d ≤ β.length → ∀ q, point (domainBasis β d) q =
      normPoly β (β.length - d) (point (β.drop (β.length - d)) q) := fun d hd q =>
    point_map_add (fun x y => normPoly_add h2 (by omega) x y) _ _
  rw [hpt _ hl, hpt _ (by omega), normPoly_domain h2 hind hl _ _ (by omega),
    normPoly_domain h2 hind (by omega) _ _ hi, show β.length - (l + 1) + (i + 1) = β.length - l + i by omega]
  have key : normPoly β (β.length - l) (point (β.drop (β.length - (l + 1))) p) =
      normPoly β (β.length - l) (point (β.drop (β.length - l)) (p / 2)) := by
    rw [List.drop_eq_getElem_cons (show β.length - (l + 1) < β.length by omega), point_cons,
      normPoly_add h2 (by omega), show β.length - (l + 1) + 1 = β.length - l by omega]
    split
    · have := normPoly_lower (β := β) (i := β.length - l) (j := β.length - (l + 1)) (by omega) (by omega)
      rw [List.getD_eq_getElem?_getD, List.getElem?_eq_getElem (by omega), Option.getD_some] at this
      rw [this, zero_add]
    · have := normPoly_add h2 (β := β) (i := β.length - l) (by omega) 0 0
      rw [add_zero] at this
      rw [left_eq_add.1 this, zero_add]
  rw [← normPoly_domain h2 hind (d := l) (by omega) _ _ hi, ← normPoly_domain h2 hind (d := l) (by omega) _ _ hi, key]

theorem novel_step (h2 : (1 : F) + 1 = 0) {β : List F} (hind : Independent β) {l : Nat} (hl : l + 1 ≤ β.length)
    (p j : Nat) :
    novel (domainBasis β (l + 1)) j (point (domainBasis β (l + 1)) p) =
      novel (domainBasis β l) (j / 2) (point (domainBasis β l) (p / 2)) *
        if j % 2 = 1 then point (domainBasis β (l + 1)) p else 1 := by
  unfold novel
  rw [domainBasis_length hl, domainBasis_length (show l ≤ β.length by omega), prod_range_succ']
  congr 1
  · refine prod_congr rfl fun i hi => ?_
    rw [mem_range] at hi
    rw [normPoly_step h2 hind hl p i hi, Nat.testBit_succ]
  · rw [normPoly_zero_of (domainBasis_one h2 hind hl (by omega)), Nat.testBit_zero]
    by_cases h : j % 2 = 1 <;> simp [h]

theorem codeword_split (h2 : (1 : F) + 1 = 0) {β : List F} (hind : Independent β) {l : Nat} (hl : l + 1 ≤ β.length)
    (N : Nat) (m : Nat → E) (p : Nat) :
    codeword (domainBasis β (l + 1)) (2 * N) m p =
      codeword (domainBasis β l) N (fun j => m (2 * j)) (p / 2) +
        point (domainBasis β (l + 1)) p • codeword (domainBasis β l) N (fun j => m (2 * j + 1)) (p / 2) := by
  unfold codeword
  rw [sum_range_mul 2 N, smul_sum, ← sum_add_distrib]
  refine sum_congr rfl fun j _ => ?_
  rw [sum_range_succ, sum_range_one, novel_step h2 hind hl, novel_step h2 hind hl,
    show (0 + 2 * j) / 2 = j by omega, show (0 + 2 * j) % 2 = 0 by omega, show (1 + 2 * j) / 2 = j by omega,
    show (1 + 2 * j) % 2 = 1 by omega, if_neg (by decide), if_pos rfl, mul_one, Nat.zero_add, Nat.add_comm 1,
    smul_smul, mul_comm (point _ _)]

theorem codeword_congr {γ : List F} {n i : Nat} {m m' : Nat → E} (h : ∀ j < n, m j = m' j) :
    codeword γ n m i = codeword γ n m' i :=
  sum_congr rfl fun j hj => by rw [h j (mem_range.1 hj)]

theorem char_two_E (h2 : (1 : F) + 1 = 0) : (1 : E) + 1 = 0 := by
  have := congrArg (algebraMap F E) h2
  simpa using this

theorem foldPair_eq (h2 : (1 : F) + 1 = 0) {β : List F} {tas tbl : List (TA F)}
    (h : withSubspace (⟨β⟩ : BinarySubspace F) = some (.ok tas)) (ht : tbl = tas ∨ tbl = precomputeTwiddles tas)
    (l N i : Nat) (hl : l + 1 ≤ β.length) (hi : i < 2 ^ l) (m : Nat → E) (r : E) :
    foldPair tbl (l + 1) i (codeword (domainBasis β (l + 1)) (2 * N) m (2 * i),
      codeword (domainBasis β (l + 1)) (2 * N) m (2 * i + 1)) r =
      some (codeword (domainBasis β l) N (fun j => (1 - r) * m (2 * j) + r * m (2 * j + 1)) i) := by
  obtain ⟨-, -, hind, -⟩ := ready_of h2 h ht
  have h2E := char_two_E (E := E) h2
  unfold foldPair
  rw [C13_get_subspace_eval h2 h ht (l + 1) i (by omega) hl hi, Option.bind_some]
  obtain ⟨τ, hτ, hτ'⟩ := domain_cons h2 hind hl
  rw [hτ', codeword_split h2 hind hl, codeword_split h2 hind hl, show 2 * i / 2 = i by omega,
    show (2 * i + 1) / 2 = i by omega]
  have p0 : point (domainBasis β (l + 1)) (2 * i) = point τ i := by
    rw [hτ, point_cons, Nat.testBit_zero, show 2 * i / 2 = i by omega]
    simp
  have p1 : point (domainBasis β (l + 1)) (2 * i + 1) = 1 + point τ i := by
    rw [hτ, point_cons, Nat.testBit_zero, show (2 * i + 1) / 2 = i by omega]
    simp
  rw [p0, p1]
  have hsum : codeword (domainBasis β l) N (fun j => (1 - r) * m (2 * j) + r * m (2 * j + 1)) i =
      (1 - r) * codeword (domainBasis β l) N (fun j => m (2 * j)) i +
        r * codeword (domainBasis β l) N (fun j => m (2 * j + 1)) i := by
    unfold codeword
    rw [mul_sum, mul_sum, ← sum_add_distrib]
    refine sum_congr rfl fun j _ => ?_
    rw [smul_add, mul_smul_comm, mul_smul_comm]
  rw [hsum]
  generalize codeword (domainBasis β l) N (fun j => m (2 * j)) i = A
  generalize codeword (domainBasis β l) N (fun j => m (2 * j + 1)) i = B
  simp only [Algebra.smul_def, map_add, map_one, line]
  generalize algebraMap F E (point τ i) = t
  congr 1
  linear_combination (A * t - A * t * r + A * r + t * B + t ^ 2 * B - t ^ 2 * B * r) * h2E

theorem foldedMessage_cons (r : E) (rs : List E) (m : Nat → E) (j : Nat) :
    foldedMessage rs (fun j => (1 - r) * m (2 * j) + r * m (2 * j + 1)) j = foldedMessage (r :: rs) m j := by
  unfold foldedMessage
  rw [mle_cons]
  congr 1
  funext k
  rw [List.length_cons, Nat.pow_succ]
  beta_reduce
  rw [← Nat.add_assoc, show j * (2 ^ rs.length * 2) + 2 * k = 2 * (j * 2 ^ rs.length + k) by ring]

theorem foldedMessage_append (r s : List E) (m : Nat → E) (j : Nat) :
    foldedMessage s (foldedMessage r m) j = foldedMessage (r ++ s) m j := by
  unfold foldedMessage
  rw [mle_append]
  congr 1
  funext k
  congr 1
  funext i
  congr 1
  rw [List.length_append, Nat.pow_add]
  ring

theorem foldChunkLoop_eq (h2 : (1 : F) + 1 = 0) {β : List F} {tas tbl : List (TA F)}
    (h : withSubspace (⟨β⟩ : BinarySubspace F) = some (.ok tas)) (ht : tbl = tas ∨ tbl = precomputeTwiddles tas)
    (N c : Nat) (rs : List E) : ∀ (L : Nat) (m : Nat → E) (v : Slice E), rs.length ≤ L → L ≤ β.length →
    c < 2 ^ (L - rs.length) → 2 ^ rs.length ≤ v.size →
    (∀ k < 2 ^ rs.length, v.val k = codeword (domainBasis β L) (2 ^ rs.length * N) m (c * 2 ^ rs.length + k)) →
    foldChunkLoop tbl c L v rs =
      some (codeword (domainBasis β (L - rs.length)) N (foldedMessage rs m) c) := by
  induction rs with
  | nil =>
    intro L m v _ _ _ hsz hv
    unfold foldChunkLoop
    rw [Slice.get?_of_lt (Nat.lt_of_lt_of_le (by simp) hsz), hv 0 (by simp)]
    simp only [List.length_nil, Nat.pow_zero, Nat.one_mul, Nat.mul_one, Nat.add_zero, Nat.sub_zero]
    congr 1
    refine codeword_congr fun j _ => ?_
    simp [foldedMessage]
  | cons r rs ih =>
    intro L m v hL hLb hc hsz hv
    rw [List.length_cons] at hL hc hsz hv
    obtain ⟨l, rfl⟩ : ∃ l, L = l + 1 := ⟨L - 1, by omega⟩
    rw [show l + 1 - (rs.length + 1) = l - rs.length by omega] at hc
    have hp := Nat.two_pow_pos rs.length
    have hps := Nat.pow_succ 2 rs.length
    unfold foldChunkLoop
    have hcl : ∀ i < 2 ^ rs.length, c * 2 ^ rs.length + i < 2 ^ l := by
      intro i hi
      have := Nat.mul_le_mul_right (2 ^ rs.length) hc
      rw [Nat.succ_mul, ← Nat.pow_add, show l - rs.length + rs.length = l by omega] at this
      omega
    have main := forRange_inv (n := 2 ^ rs.length) (s := v) (body := fun indexOffset (values : Slice E) =>
      (values.get? (indexOffset * 2)).bind fun a =>
      (values.get? (indexOffset * 2 + 1)).bind fun b =>
      (foldPair tbl (l + 1) ((c <<< rs.length) ||| indexOffset) (a, b) r).bind fun x =>
        values.set? indexOffset x)
      (fun i u => u.size = v.size ∧ (∀ k < i, u.val k = codeword (domainBasis β l) (2 ^ rs.length * N)
        (fun j => (1 - r) * m (2 * j) + r * m (2 * j + 1)) (c * 2 ^ rs.length + k)) ∧ ∀ k, i ≤ k → u.val k = v.val k)
      ⟨rfl, fun k hk => absurd hk (by omega), fun _ _ => rfl⟩ (by
        rintro i hi u ⟨hus, hu1, hu2⟩
        rw [Slice.get?_of_lt (by omega), Option.bind_some, Slice.get?_of_lt (by omega), Option.bind_some,
          hu2 _ (by omega), hu2 _ (by omega), hv _ (by omega), hv _ (by omega), shl_or hi]
        have e := foldPair_eq h2 h ht l (2 ^ rs.length * N) (c * 2 ^ rs.length + i) hLb (hcl i hi) m r
        rw [show 2 * (2 ^ rs.length * N) = 2 ^ (rs.length + 1) * N by rw [hps]; ring,
          show 2 * (c * 2 ^ rs.length + i) = c * 2 ^ (rs.length + 1) + i * 2 by rw [hps]; ring] at e
        rw [← Nat.add_assoc, e, Option.bind_some, Slice.set?_of_lt (by omega)]
        refine ⟨_, rfl, hus, fun k hk => ?_, fun k hk => ?_⟩
        · dsimp only
          split
          · next h => rw [h]
          · exact hu1 k (by omega)
        · dsimp only
          rw [if_neg (by omega)]
          exact hu2 k (by omega))
    obtain ⟨u, hu, hus, hu1, -⟩ := main
    rw [hu, Option.bind_some, if_neg (by omega), Nat.add_sub_cancel,
      ih l _ u (by omega) (by omega) hc (by omega) hu1, List.length_cons,
      show l + 1 - (rs.length + 1) = l - rs.length by omega]
    congr 1
    exact codeword_congr fun j _ => foldedMessage_cons r rs m j

end Verif.NTT
