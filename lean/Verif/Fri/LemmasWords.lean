import Verif.Fri.LemmasFold

/-! Lemmas about folding codewords, and about domains within domains. -/

set_option linter.unusedSectionVars false

namespace Verif.Fri

open Finset Verif.NTT.Spec Verif.Mle Verif.Fri.Spec
open Verif.NTT (TA Lanes flat precomputeTwiddles ready_of domainBasis_length domainBasis_one domainBasis_independent
  normPoly_domain codeword_congr)
open Verif.Subspace (BinarySubspace)

variable {F E : Type*} [Field F] [DecidableEq F] [Field E] [Algebra F E]

theorem foldMany_codeword (h2 : (1 : F) + 1 = 0) {β : List F} {tas tbl : List (TA F)}
    (h : NTT.withSubspace (⟨β⟩ : BinarySubspace F) = some (.ok tas)) (ht : tbl = tas ∨ tbl = precomputeTwiddles tas)
    (L N c : Nat) (rs : List E) (hn : rs.length ≤ L) (hL : L ≤ β.length) (hc : c < 2 ^ (L - rs.length))
    (m : Nat → E) (u : Nat → E)
    (hu : ∀ i < 2 ^ L, u i = codeword (domainBasis β L) (2 ^ rs.length * N) m i) :
    foldMany β L rs u c = codeword (domainBasis β (L - rs.length)) N (foldedMessage rs m) c := by
  have hlt : ∀ k < 2 ^ rs.length, c * 2 ^ rs.length + k < 2 ^ L := by
    intro k hk
    have := Nat.mul_le_mul_right (2 ^ rs.length) hc
    rw [Nat.succ_mul, ← Nat.pow_add, show L - rs.length + rs.length = L by omega] at this
    omega
  have e1 := foldChunk_word h2 h ht L c rs hn hL hc u ⟨2 ^ rs.length, fun k => u (c * 2 ^ rs.length + k)⟩ rfl
    fun _ _ => rfl
  have e2 := NTT.C16_chunk h2 h ht L N c rs hn hL hc m ⟨2 ^ rs.length, fun k => u (c * 2 ^ rs.length + k)⟩ rfl
    fun k hk => hu _ (hlt k hk)
  rw [e1] at e2
  exact Option.some.inj e2

theorem combine_codeword (γ : List F) (N y : Nat) (ic : List E) (M u : Nat → E)
    (hu : ∀ x < 2 ^ ic.length, u (y * 2 ^ ic.length + x) = codeword γ N (fun j => M (j * 2 ^ ic.length + x)) y) :
    combine ic u y = codeword γ N (foldedMessage ic M) y := by
  unfold combine codeword foldedMessage mle
  simp only [smul_sum]
  rw [sum_comm]
  refine sum_congr rfl fun x hx => ?_
  rw [mem_range] at hx
  rw [hu x hx]
  unfold codeword
  rw [mul_sum]
  refine sum_congr rfl fun j _ => ?_
  rw [mul_smul_comm]

theorem foldWord_codeword (h2 : (1 : F) + 1 = 0) {β : List F} {tas tbl : List (TA F)}
    (h : NTT.withSubspace (⟨β⟩ : BinarySubspace F) = some (.ok tas)) (ht : tbl = tas ∨ tbl = precomputeTwiddles tas)
    (L N b c : Nat) (rs : List E) (hb : b ≤ rs.length) (hn : rs.length - b ≤ L) (hL : L ≤ β.length)
    (hc : c < 2 ^ (L - (rs.length - b))) (M u : Nat → E)
    (hu : ∀ y < 2 ^ L, ∀ x < 2 ^ b, u (y * 2 ^ b + x) =
      codeword (domainBasis β L) (2 ^ (rs.length - b) * N) (fun j => M (j * 2 ^ b + x)) y) :
    foldWord β L b rs u c = codeword (domainBasis β (L - (rs.length - b))) N (foldedMessage rs M) c := by
  have hlt : (rs.take b).length = b := by rw [List.length_take]; omega
  have hld : (rs.drop b).length = rs.length - b := List.length_drop
  unfold foldWord
  rw [foldMany_codeword h2 h ht L N c (rs.drop b) (by omega) hL (by rw [hld]; exact hc) (foldedMessage (rs.take b) M)
    _ ?_, hld]
  · refine codeword_congr fun j _ => ?_
    rw [NTT.foldedMessage_append, List.take_append_drop]
  · intro i hi
    refine combine_codeword _ _ _ _ M u ?_
    rw [hlt, hld]
    exact hu i hi

/-- The codeword of a single coefficient is constant. -/
theorem codeword_one (γ : List F) (m : Nat → E) (i : Nat) : codeword γ 1 m i = m 0 := by
  unfold codeword
  rw [sum_range_one]
  have : novel γ 0 (point γ i) = 1 := by
    unfold novel
    exact prod_eq_one fun j _ => by simp
  rw [this, one_smul]

theorem domainBasis_domainBasis (h2 : (1 : F) + 1 = 0) {β : List F} (hind : Independent β) {L l : Nat}
    (hL : L ≤ β.length) (hl : l ≤ L) : domainBasis (domainBasis β L) l = domainBasis β l := by
  have hlen := domainBasis_length hL
  unfold domainBasis at hlen ⊢
  rw [hlen, ← List.map_drop, List.drop_drop, List.map_map, show β.length - L + (L - l) = β.length - l by omega]
  refine List.map_congr_left fun x _ => ?_
  rcases Nat.eq_zero_or_pos l with rfl | h0
  · rename_i hx
    rw [Nat.sub_zero, List.drop_length] at hx
    simp at hx
  · exact (normPoly_domain h2 hind hL x (L - l) (by omega)).trans (by
      rw [show β.length - L + (L - l) = β.length - l by omega])

theorem foldMany_domain (h2 : (1 : F) + 1 = 0) {β : List F} (hind : Independent β) {L : Nat}
    (hL : L ≤ β.length) : ∀ (rs : List E) (l : Nat) (u : Nat → E), l ≤ L →
    foldMany (domainBasis β L) l rs u = foldMany β l rs u
  | [], _, _, _ => rfl
  | r :: rs, l, u, hl => by
    unfold foldMany
    rw [domainBasis_domainBasis h2 hind hL hl, foldMany_domain h2 hind hL rs (l - 1) _ (by omega)]

/-- The NTT over the domain of dimension `L`. -/
theorem domain_ntt (h2 : (1 : F) + 1 = 0) {β : List F} {tas : List (TA F)}
    (h : NTT.withSubspace (⟨β⟩ : BinarySubspace F) = some (.ok tas)) {L : Nat} (h0 : 0 < L) (hL : L ≤ β.length) :
    ∃ tas', NTT.withSubspace (⟨domainBasis β L⟩ : BinarySubspace F) = some (.ok tas') := by
  obtain ⟨-, -, hind, -⟩ := ready_of h2 h (Or.inl rfl)
  have hlen := domainBasis_length hL
  obtain ⟨tas', e, -⟩ := (NTT.C13_construct h2 (domainBasis β L)).2.2.1
    (by intro e; rw [e] at hlen; simp at hlen; omega)
    (domainBasis_one h2 hind hL h0) (domainBasis_independent h2 hind hL)
  exact ⟨tas', e⟩

end Verif.Fri
