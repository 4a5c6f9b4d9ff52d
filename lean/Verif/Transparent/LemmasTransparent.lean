import Verif.Transparent.ModelTransparent
import Verif.Math.LemmasTensor
import Verif.Field.LemmasScalar

set_option linter.unusedSectionVars false

/-! Lemmas on the transparent polynomials: each evaluation loop is the multilinear extension of a table. -/

namespace Verif.Transparent

open Verif.Tensor Verif.Mle

variable {F : Type*} [CommRing F]

theorem mlxNew_ok (w n : Nat) (s : Slice F) (h : s.size = 2 ^ (n - w) * 2 ^ w) : Mlx.new w n s = .ok ⟨n, s⟩ := by
  have hp : packedLen w s = 2 ^ (n - w) := by
    unfold packedLen; rw [h, Nat.mul_div_cancel _ (Nat.two_pow_pos w)]
  unfold Mlx.new
  rw [hp, if_neg (not_not.2 ⟨_, rfl⟩)]
  split
  · rw [if_neg (by rw [show n - w = 0 by omega]; simp)]
  · rw [if_neg]; rw [Nat.log2_two_pow]; omega

theorem fromValues_ok (w n : Nat) (s : Slice F) (hn : w ≤ n) (h : s.size = 2 ^ (n - w) * 2 ^ w) :
    mlxFromValues w s = .ok ⟨n, s⟩ := by
  have hp : packedLen w s = 2 ^ (n - w) := by
    unfold packedLen; rw [h, Nat.mul_div_cancel _ (Nat.two_pow_pos w)]
  unfold mlxFromValues
  rw [hp, if_neg (not_not.2 ⟨_, rfl⟩), Nat.log2_two_pow, Nat.sub_add_cancel hn]

theorem eqIndLoop_eq (res : F) (q r : List F) (h : q.length = r.length) :
    eqIndLoop res q r = res * mle (eqWeight r) q := by
  induction q generalizing res r with
  | nil =>
    have : r = [] := List.length_eq_zero_iff.1 h.symm
    subst this; simp [eqIndLoop]
  | cons x q ih =>
    obtain _ | ⟨y, r⟩ := r
    · simp at h
    rw [eqIndLoop, ih _ _ (by simpa using h), mle_cons, mul_assoc, ← mle_smul]
    congr 2; funext j
    rw [eqWeight_cons, eqWeight_cons, if_neg (by omega), if_pos (by omega), show 2 * j / 2 = j by omega,
      show (2 * j + 1) / 2 = j by omega]
    ring

theorem nthSuccessor_eq (base x : F) (n : Nat) : nthSuccessor base x n = x * base ^ n := by
  induction n with
  | zero => simp [nthSuccessor]
  | succ n ih => rw [nthSuccessor, ih, pow_succ, mul_assoc]

theorem powersLoop_eq (res b : F) (q : List F) : powersLoop res b q = res * mle (fun i => b ^ i) q := by
  induction q generalizing res b with
  | nil => simp [powersLoop]
  | cons x q ih =>
    rw [powersLoop, ih, mle_cons, mul_assoc, ← mle_smul]
    congr 2; funext j
    rw [pow_succ, pow_mul, pow_two]; ring

theorem selectRowLoop_eq (k : Nat) (res : F) (q : List F) (hk : k < 2 ^ q.length) :
    selectRowLoop k res q = res * mle (fun i => if i = k then 1 else 0) q := by
  induction q generalizing k res with
  | nil =>
    have : k = 0 := by simpa using hk
    subst this; simp [selectRowLoop]
  | cons x q ih =>
    have hk' : k / 2 < 2 ^ q.length := by rw [List.length_cons, Nat.pow_succ] at hk; omega
    rw [selectRowLoop, ih _ _ hk', mle_cons]
    split
    · rename_i h
      rw [mul_assoc, ← mle_smul]
      congr 2; funext j
      rw [if_neg (show ¬ 2 * j = k by omega)]
      by_cases h2 : j = k / 2
      · rw [if_pos h2, if_pos (by omega)]; ring
      · rw [if_neg h2, if_neg (by omega)]; ring
    · rename_i h
      rw [mul_assoc, ← mle_smul]
      congr 2; funext j
      rw [if_neg (show ¬ 2 * j + 1 = k by omega)]
      by_cases h2 : j = k / 2
      · rw [if_pos h2, if_pos (by omega)]; ring
      · rw [if_neg h2, if_neg (by omega)]; ring

theorem stepDownLoop_eq (k : Nat) (res : F) (q : List F) (hk : k < 2 ^ q.length) :
    stepDownLoop k res q = mle (fun i => if i < k then 1 else if i = k then res else 0) q := by
  induction q generalizing k res with
  | nil =>
    have : k = 0 := by simpa using hk
    subst this; simp [stepDownLoop]
  | cons x q ih =>
    have hk' : k / 2 < 2 ^ q.length := by rw [List.length_cons, Nat.pow_succ] at hk; omega
    rw [stepDownLoop, ih _ _ hk', mle_cons]
    congr 1; funext j
    rcases Nat.lt_trichotomy j (k / 2) with h | h | h
    · rw [if_pos h, if_pos (by omega), if_pos (by omega)]; ring
    · rw [if_neg (by omega), if_pos h]
      by_cases hb : k % 2 = 1
      · rw [if_pos hb, if_pos (by omega), if_neg (by omega), if_pos (by omega)]; ring
      · rw [if_neg hb, if_neg (by omega), if_pos (by omega), if_neg (by omega), if_neg (by omega)]; ring
    · rw [if_neg (by omega), if_neg (by omega), if_neg (by omega), if_neg (by omega), if_neg (by omega),
        if_neg (by omega)]; ring

theorem stepUpLoop_eq (k : Nat) (res : F) (q : List F) (hk : k < 2 ^ q.length) :
    stepUpLoop k res q = mle (fun i => if i < k then 0 else if i = k then res else 1) q := by
  induction q generalizing k res with
  | nil =>
    have : k = 0 := by simpa using hk
    subst this; simp [stepUpLoop]
  | cons x q ih =>
    have hk' : k / 2 < 2 ^ q.length := by rw [List.length_cons, Nat.pow_succ] at hk; omega
    rw [stepUpLoop, ih _ _ hk', mle_cons]
    congr 1; funext j
    rcases Nat.lt_trichotomy j (k / 2) with h | h | h
    · rw [if_pos h, if_pos (by omega), if_pos (by omega)]; ring
    · rw [if_neg (by omega), if_pos h]
      by_cases hb : k % 2 = 1
      · rw [if_pos hb, if_pos (by omega), if_neg (by omega), if_pos (by omega)]; ring
      · rw [if_neg hb, if_neg (by omega), if_pos (by omega), if_neg (by omega), if_neg (by omega)]; ring
    · rw [if_neg (by omega), if_neg (by omega), if_neg (by omega), if_neg (by omega), if_neg (by omega),
        if_neg (by omega)]; ring

theorem stepPopulate_ok (w n index : Nat) (lo hi : F) (v : Nat → F) (h : index ≤ 2 ^ n) :
    ∃ d, stepPopulate w index lo hi ⟨2 ^ (n - w) * 2 ^ w, v⟩ = some d ∧ d.size = 2 ^ (n - w) * 2 ^ w ∧
      ∀ j, d.val j = if j < index then lo else hi := by
  have hw := Nat.two_pow_pos w
  have hle := le_pow_sub_mul w n
  have hdm := Nat.div_add_mod index (2 ^ w)
  have hlt := Nat.mod_lt index hw
  have hmul : 2 ^ w * (index / 2 ^ w) = index / 2 ^ w * 2 ^ w := Nat.mul_comm _ _
  unfold stepPopulate
  simp only [packedLen_mul]
  rw [if_neg]
  · obtain ⟨d, h1, h2, h3⟩ := forRange_inv (n := index % 2 ^ w)
      (body := fun i d => Slice.set? d (index / 2 ^ w * 2 ^ w + i) lo)
      (s := ⟨2 ^ (n - w) * 2 ^ w, fun j => if j / 2 ^ w < index / 2 ^ w then lo else hi⟩)
      (fun i d => d.size = 2 ^ (n - w) * 2 ^ w ∧
        ∀ j, d.val j = if j < index / 2 ^ w * 2 ^ w + i then lo else hi)
      ⟨rfl, fun j => by
        show (if j / 2 ^ w < index / 2 ^ w then lo else hi) = _
        refine if_congr ?_ rfl rfl
        rw [Nat.add_zero, Nat.div_lt_iff_lt_mul hw]⟩
      (fun i hi' d hd => by
        refine ⟨_, Slice.set?_of_lt ?_, hd.1, fun j => ?_⟩
        · rw [hd.1]; omega
        · show (if j = index / 2 ^ w * 2 ^ w + i then lo else d.val j) = _
          rw [hd.2]
          split
          · rw [if_pos (by omega)]
          · exact if_congr (by omega) rfl rfl)
    refine ⟨d, h1, h2, fun j => ?_⟩
    rw [h3 j]
    exact if_congr (by omega) rfl rfl
  · rw [not_lt]
    exact Nat.le_of_mul_le_mul_right (by omega) hw

/-! ### The tower basis -/

open Verif.Field

theorem basis_zero (m : Nat) : (T.basis (k := 0) m 0 : T (0 + m)) = 1 := by
  induction m with
  | zero => rfl
  | succ m ih => exact (if_pos (Nat.two_pow_pos m)).trans (Prod.ext ih rfl)

theorem basis_mul (d : Nat) : ∀ m j, m < d → j * 2 ^ (m + 1) < 2 ^ d →
    (T.basis (k := 0) d (j * 2 ^ (m + 1)) : T (0 + d)) * T.basis d (2 ^ m) = T.basis d (j * 2 ^ (m + 1) + 2 ^ m) := by
  induction d with
  | zero => intro m e h; omega
  | succ d ih =>
    intro m j hm he
    have hmp := Nat.two_pow_pos m
    have hms : 2 ^ (m + 1) = 2 ^ m * 2 := Nat.pow_succ _ _
    rcases Nat.lt_or_ge m d with h | h
    · obtain ⟨c, rfl⟩ : ∃ c, d = m + 1 + c := ⟨d - (m + 1), by omega⟩
      have hd : 2 ^ (m + 1 + c) = 2 ^ c * 2 ^ (m + 1) := by rw [Nat.pow_add, Nat.mul_comm]
      have hcp := Nat.two_pow_pos c
      have hle : 2 ^ m < 2 ^ (m + 1 + c) := Nat.pow_lt_pow_right (by omega) (by omega)
      generalize hD : m + 1 + c = D at *
      have e2 : (T.basis (k := 0) (D + 1) (2 ^ m) : T (0 + D + 1)) = (T.basis D (2 ^ m), (0 : T (0 + D))) :=
        if_pos hle
      rcases Nat.lt_or_ge j (2 ^ c) with hj | hj
      · have hb : (j + 1) * 2 ^ (m + 1) ≤ 2 ^ c * 2 ^ (m + 1) := Nat.mul_le_mul_right _ hj
        rw [Nat.succ_mul] at hb
        have e1 : (T.basis (k := 0) (D + 1) (j * 2 ^ (m + 1)) : T (0 + D + 1)) =
          (T.basis D (j * 2 ^ (m + 1)), (0 : T (0 + D))) := if_pos (by omega)
        have e3 : (T.basis (k := 0) (D + 1) (j * 2 ^ (m + 1) + 2 ^ m) : T (0 + D + 1)) =
          (T.basis D (j * 2 ^ (m + 1) + 2 ^ m), (0 : T (0 + D))) := if_pos (by omega)
        refine (congrArg₂ (fun a b : T (0 + D + 1) => a * b) e1 e2).trans (Eq.trans ?_ e3.symm)
        refine (T.mk_mul_mk _ _ _ _).trans (Prod.ext ?_ ?_)
        · show T.basis D (j * 2 ^ (m + 1)) * T.basis D (2 ^ m) + 0 * 0 = _
          rw [ih m j h (by omega)]; ring
        · show T.basis D (j * 2 ^ (m + 1)) * 0 + 0 * T.basis D (2 ^ m) + _ * (0 * 0) = (0 : T (0 + D))
          ring
      · obtain ⟨i, rfl⟩ : ∃ i, j = 2 ^ c + i := ⟨j - 2 ^ c, by omega⟩
        rw [Nat.add_mul, ← hd] at he ⊢
        rw [show 2 ^ (D + 1) = 2 ^ D * 2 from Nat.pow_succ _ _] at he
        have e1 : (T.basis (k := 0) (D + 1) (2 ^ D + i * 2 ^ (m + 1)) : T (0 + D + 1)) =
          ((0 : T (0 + D)), T.basis D (2 ^ D + i * 2 ^ (m + 1) - 2 ^ D)) := if_neg (by omega)
        have e3 : (T.basis (k := 0) (D + 1) (2 ^ D + i * 2 ^ (m + 1) + 2 ^ m) : T (0 + D + 1)) =
          ((0 : T (0 + D)), T.basis D (2 ^ D + i * 2 ^ (m + 1) + 2 ^ m - 2 ^ D)) := if_neg (by omega)
        rw [Nat.add_sub_cancel_left] at e1
        rw [show 2 ^ D + i * 2 ^ (m + 1) + 2 ^ m - 2 ^ D = i * 2 ^ (m + 1) + 2 ^ m by omega] at e3
        refine (congrArg₂ (fun a b : T (0 + D + 1) => a * b) e1 e2).trans (Eq.trans ?_ e3.symm)
        refine (T.mk_mul_mk _ _ _ _).trans (Prod.ext ?_ ?_)
        · show 0 * T.basis D (2 ^ m) + T.basis D (i * 2 ^ (m + 1)) * 0 = (0 : T (0 + D))
          ring
        · show 0 * 0 + T.basis D (i * 2 ^ (m + 1)) * T.basis D (2 ^ m) + _ * (T.basis D (i * 2 ^ (m + 1)) * 0) =
            T.basis D (i * 2 ^ (m + 1) + 2 ^ m)
          rw [ih m i h (by omega)]; ring
    · have : m = d := by omega
      subst this
      have hj : j = 0 := by
        by_contra hne
        have : 1 * 2 ^ (m + 1) ≤ j * 2 ^ (m + 1) := Nat.mul_le_mul_right _ (by omega)
        omega
      subst hj
      rw [Nat.zero_mul, basis_zero, one_mul, Nat.zero_add (2 ^ m)]

theorem basisT_ok (n iota i : Nat) (h : iota ≤ n) (hi : i < 2 ^ (n - iota)) :
    basisT n iota i = .ok (T.basis n (i * 2 ^ iota)) := by
  have hlt : i * 2 ^ iota < 2 ^ n := by
    have := Nat.mul_lt_mul_of_pos_right hi (Nat.two_pow_pos iota)
    rwa [← Nat.pow_add, Nat.sub_add_cancel h] at this
  unfold basisT Scalar.towerBasis
  rw [if_neg (by omega), if_neg (by omega)]
  unfold Scalar.basisChecked
  rw [if_neg (by omega)]
  exact congrArg Except.ok (Scalar.toT_basis (k := 0) (d := n) (i * 2 ^ iota) hlt)

theorem towerBasisLoop_eq (n iota : Nat) (qs : List (T (0 + n))) : ∀ i res, iota + i + qs.length ≤ n →
    towerBasisLoop n iota i res qs = .ok (res * mle (fun e => T.basis n (e * 2 ^ (iota + i))) qs) := by
  induction qs with
  | nil => intro i res h; simp [towerBasisLoop, basis_zero]
  | cons q qs ih =>
    intro i res h
    rw [List.length_cons] at h
    rw [towerBasisLoop, basisT_ok n (iota + i) 1 (by omega) (Nat.one_lt_two_pow (by omega))]
    show towerBasisLoop n iota (i + 1) _ qs = _
    rw [ih (i + 1) _ (by omega), mle_cons, mul_assoc, ← mle_smul, Nat.one_mul]
    congr 2
    refine mle_congr fun j hj => ?_
    have hlt : j * 2 ^ (iota + i + 1) < 2 ^ n := by
      calc j * 2 ^ (iota + i + 1) < 2 ^ qs.length * 2 ^ (iota + i + 1) :=
            Nat.mul_lt_mul_of_pos_right hj (Nat.two_pow_pos _)
        _ = 2 ^ (qs.length + (iota + i + 1)) := (Nat.pow_add _ _ _).symm
        _ ≤ 2 ^ n := Nat.pow_le_pow_right (by omega) (by omega)
    have e1 : 2 * j * 2 ^ (iota + i) = j * 2 ^ (iota + i + 1) := by rw [Nat.pow_succ]; ring
    rw [Nat.add_mul, Nat.one_mul, e1, ← basis_mul n (iota + i) j (by omega) hlt]
    rw [show iota + (i + 1) = iota + i + 1 by omega]
    ring

theorem towerBasisValues_ok (n iota : Nat) (h : iota ≤ n) : ∀ m, m ≤ 2 ^ (n - iota) →
    towerBasisValues n iota m = .ok ((List.range m).map fun e => T.basis n (e * 2 ^ iota)) := by
  intro m
  induction m with
  | zero => intro _; rfl
  | succ m ih =>
    intro hm
    rw [towerBasisValues, ih (by omega)]
    show (match basisT n iota m with | .error e => _ | .ok b => _) = _
    rw [basisT_ok n iota m h (by omega), List.range_succ, List.map_append]
    rfl

end Verif.Transparent
