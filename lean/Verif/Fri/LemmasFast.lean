import Verif.Fri.LemmasFold

/-! Lemma about the fold of the packed compute layer. -/

set_option linter.unusedSectionVars false

namespace Verif.Fri

open Finset Verif.NTT.Spec Verif.Mle Verif.Fri.Spec
open Verif.NTT (TA Lanes flat foldInterleavedChunk foldInterleavedAllocated precomputeTwiddles ceil_mul)
open Verif.Subspace (BinarySubspace)

variable {F E : Type*} [Field F] [DecidableEq F] [Field E] [Algebra F E]

theorem fast_folds (h2 : (1 : F) + 1 = 0) {β : List F} {tas tbl : List (TA F)}
    (h : NTT.withSubspace (⟨β⟩ : BinarySubspace F) = some (.ok tas)) (ht : tbl = tas ∨ tbl = precomputeTwiddles tas)
    (w : Nat) (scratch : Nat → Nat → E) (L b n : Nat) (hL : L ≤ β.length) (hbn : b ≤ n) (hn : n - b ≤ L)
    (hb : b = 0 ∨ w ≤ b) (hw : w ≤ n) : Folds (E := E) β (fastFriFold w scratch tbl) L b n := by
  rintro challenges data rfl hd
  obtain ⟨ic, fc, rfl, hic⟩ : ∃ ic fc, challenges = ic ++ fc ∧ ic.length = b :=
    ⟨challenges.take b, challenges.drop b, (List.take_append_drop b _).symm, by rw [List.length_take]; omega⟩
  subst hic
  have hlen : (ic ++ fc).length - ic.length = fc.length := by rw [List.length_append]; omega
  have hlen' : (ic ++ fc).length = ic.length + fc.length := List.length_append
  rw [hlen] at hn ⊢
  rw [hlen'] at hw
  have hsz : data.length / 2 ^ w = 2 ^ (L + ic.length - w) := by
    rw [hd, show L + ic.length = L + ic.length - w + w by omega, Nat.pow_add,
      Nat.mul_div_cancel _ (Nat.two_pow_pos _), Nat.add_sub_cancel]
  obtain ⟨q, e, hq, -, he, hes, hev⟩ := Tensor.C17_expand w ic
  unfold fastFriFold foldInterleavedAllocated
  rw [hlen]
  rw [if_neg (by dsimp only; rw [hsz]; omega)]
  dsimp only
  rw [List.take_left, List.drop_left, hq, Option.bind_some, he, Option.bind_some, hsz, hlen']
  have hcp := Nat.two_pow_pos (ic.length + fc.length - w)
  have e1 : 2 ^ (L + ic.length - w) = 2 ^ (L - fc.length) * 2 ^ (ic.length + fc.length - w) := by
    rw [← Nat.pow_add]; congr 1; omega
  rw [show (2 ^ (L + ic.length - w) + 2 ^ (ic.length + fc.length - w) - 1) / 2 ^ (ic.length + fc.length - w) =
    2 ^ (L - fc.length) by rw [e1, ceil_mul _ hcp], Nat.min_self]
  have main := forRange_inv (n := 2 ^ (L - fc.length)) (s := (⟨2 ^ (L - fc.length), fun _ => 0⟩ : Slice E))
    (body := fun i (out : Slice E) =>
      (foldInterleavedChunk w tbl L ic.length i
        ⟨min (2 ^ (ic.length + fc.length - w)) (2 ^ (L + ic.length - w) - i * 2 ^ (ic.length + fc.length - w)),
          fun k l => (data[(i * 2 ^ (ic.length + fc.length - w) + k) * 2 ^ w + l]?).getD 0⟩ e fc
        ⟨2 ^ fc.length, scratch i⟩).bind fun x => out.set? i x)
    (fun i out => out.size = 2 ^ (L - fc.length) ∧ ∀ k < i, out.val k =
      foldMany β L fc (combine ic (word data)) k)
    ⟨rfl, fun k hk => absurd hk (by omega)⟩ (by
      rintro i hi out ⟨hos, hov⟩
      rw [interleavedChunk_word h2 h ht w L i ic fc hn hL hi hb (word data) _ ?_ e _ hes hev le_rfl ?_,
        Option.bind_some, Slice.set?_of_lt (by omega)]
      · refine ⟨_, rfl, hos, fun k hk => ?_⟩
        dsimp only
        split
        · next h => rw [h]
        · exact hov k (by omega)
      · dsimp only
        rw [e1, ← Nat.sub_mul, Nat.add_comm fc.length]
        refine Nat.min_eq_left ?_
        exact Nat.le_mul_of_pos_left _ (by omega)
      · intro p _
        unfold flat word
        dsimp only
        congr 2
        rw [show 2 ^ (ic.length + fc.length) = 2 ^ (ic.length + fc.length - w) * 2 ^ w by
          rw [← Nat.pow_add]; congr 1; omega, Nat.add_mul, Nat.add_assoc, Nat.div_add_mod', Nat.mul_assoc])
  obtain ⟨out, ho, hos, hov⟩ := main
  rw [ho, Option.map_some]
  unfold orPanic foldWord
  rw [Option.map_some, hos, List.take_left, List.drop_left]
  congr 2
  exact List.map_congr_left fun i hi => hov i (List.mem_range.1 hi)

end Verif.Fri
