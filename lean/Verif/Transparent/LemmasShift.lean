import Verif.Transparent.SpecShift
import Verif.Transparent.LemmasTransparent

set_option linter.unusedSectionVars false

/-! Lemmas on the shift indicator. -/

namespace Verif.Transparent

open Verif.Tensor Verif.Mle

variable {F : Type*} [CommRing F]

/-- The partial evaluation at `r` of the indicator of `i + (o mod 2^k) = j + c 2^k`, where `k = r.length`. -/
def carry (r : List F) (o c i : Nat) : F :=
  mle (fun j => if i + o % 2 ^ r.length = j + c * 2 ^ r.length then 1 else 0) r

theorem mle_ind_congr {P Q : Nat → Prop} [DecidablePred P] [DecidablePred Q] {r : List F}
    (h : ∀ j < 2 ^ r.length, (P j ↔ Q j)) :
    mle (fun j => if P j then (1 : F) else 0) r = mle (fun j => if Q j then 1 else 0) r :=
  mle_congr fun j hj => if_congr (h j hj) rfl rfl

theorem mle_ind_false {P : Nat → Prop} [DecidablePred P] {r : List F} (h : ∀ j < 2 ^ r.length, ¬ P j) :
    mle (fun j => if P j then (1 : F) else 0) r = 0 :=
  (mle_congr fun j hj => if_neg (h j hj)).trans (mle_zero r)

section
variable (r : List F) (o i : Nat) (y : F)

theorem carry_snoc (c : Nat) : carry (r ++ [y]) o c i =
    (1 - y) * mle (fun j => if i + o % 2 ^ (r.length + 1) = j + c * 2 ^ (r.length + 1) then 1 else 0) r +
    y * mle (fun j => if i + o % 2 ^ (r.length + 1) = j + 2 ^ r.length + c * 2 ^ (r.length + 1) then 1 else 0) r := by
  unfold carry
  rw [mle_snoc]
  simp

variable (hi : i < 2 ^ r.length)
include hi

theorem carry_odd (ho : o / 2 ^ r.length % 2 = 1) :
    carry (r ++ [y]) o 0 i = y * carry r o 0 i ∧
    carry (r ++ [y]) o 0 (i + 2 ^ r.length) = 0 ∧
    carry (r ++ [y]) o 1 i = (1 - y) * carry r o 1 i ∧
    carry (r ++ [y]) o 1 (i + 2 ^ r.length) = (1 - y) * carry r o 0 i + y * carry r o 1 i := by
  have hm : o % 2 ^ (r.length + 1) = o % 2 ^ r.length + 2 ^ r.length := by
    rw [Nat.mod_pow_succ, ho, Nat.mul_one]
  have hlt := Nat.mod_lt o (Nat.two_pow_pos r.length)
  have hs : 2 ^ (r.length + 1) = 2 ^ r.length * 2 := Nat.pow_succ _ _
  simp only [carry_snoc, hm]
  simp only [hs]
  refine ⟨?_, ?_, ?_, ?_⟩
  · rw [mle_ind_false (by intro j hj; omega), mul_zero, zero_add]
    exact congrArg _ (mle_ind_congr (by intro j hj; omega))
  · rw [mle_ind_false (by intro j hj; omega), mle_ind_false (by intro j hj; omega)]; ring
  · rw [mle_ind_false (P := fun j => i + _ = j + 2 ^ r.length + 1 * _) (by intro j hj; omega), mul_zero, add_zero]
    exact congrArg _ (mle_ind_congr (by intro j hj; omega))
  · exact congrArg₂ _ (congrArg _ (mle_ind_congr (by intro j hj; omega)))
      (congrArg _ (mle_ind_congr (by intro j hj; omega)))

theorem carry_even (ho : o / 2 ^ r.length % 2 = 0) :
    carry (r ++ [y]) o 0 i = (1 - y) * carry r o 0 i + y * carry r o 1 i ∧
    carry (r ++ [y]) o 0 (i + 2 ^ r.length) = y * carry r o 0 i ∧
    carry (r ++ [y]) o 1 i = 0 ∧
    carry (r ++ [y]) o 1 (i + 2 ^ r.length) = (1 - y) * carry r o 1 i := by
  have hm : o % 2 ^ (r.length + 1) = o % 2 ^ r.length := by
    rw [Nat.mod_pow_succ, ho, Nat.mul_zero, Nat.add_zero]
  have hlt := Nat.mod_lt o (Nat.two_pow_pos r.length)
  have hs : 2 ^ (r.length + 1) = 2 ^ r.length * 2 := Nat.pow_succ _ _
  simp only [carry_snoc, hm]
  simp only [hs]
  refine ⟨?_, ?_, ?_, ?_⟩
  · exact congrArg₂ _ (congrArg _ (mle_ind_congr (by intro j hj; omega)))
      (congrArg _ (mle_ind_congr (by intro j hj; omega)))
  · rw [mle_ind_false (P := fun j => i + _ + _ = j + 0 * _) (by intro j hj; omega), mul_zero, zero_add]
    exact congrArg _ (mle_ind_congr (by intro j hj; omega))
  · rw [mle_ind_false (by intro j hj; omega), mle_ind_false (by intro j hj; omega)]; ring
  · rw [mle_ind_false (P := fun j => i + _ + _ = j + 2 ^ r.length + 1 * _) (by intro j hj; omega), mul_zero, add_zero]
    exact congrArg _ (mle_ind_congr (by intro j hj; omega))

end

theorem shiftStep_eq (h2 : (2 : F) = 0) (xs r : List F) (o : Nat) (x y : F) (hl : xs.length = r.length) :
    shiftStep (o / 2 ^ r.length % 2 = 1) x y (mle (carry r o 0) xs, mle (carry r o 1) xs) =
      (mle (carry (r ++ [y]) o 0) (xs ++ [x]), mle (carry (r ++ [y]) o 1) (xs ++ [x])) := by
  rw [mle_snoc, mle_snoc, hl]
  unfold shiftStep eqBit
  rcases Nat.mod_two_eq_zero_or_one (o / 2 ^ r.length) with ho | ho
  · have key := fun i hi => carry_even r o i y (hl ▸ hi : i < 2 ^ r.length) ho
    rw [mle_congr fun i hi => (key i hi).1, mle_congr fun i hi => (key i hi).2.1,
      mle_congr fun i hi => (key i hi).2.2.1, mle_congr fun i hi => (key i hi).2.2.2]
    rw [mle_add, mle_smul, mle_smul, mle_smul, mle_smul, mle_zero, if_neg (by simp [ho])]
    refine Prod.ext ?_ ?_
    · show _ * mle (carry r o 0) xs + _ * mle (carry r o 1) xs = (1 - x) * ((1 - y) * mle (carry r o 0) xs +
        y * mle (carry r o 1) xs) + x * (y * mle (carry r o 0) xs)
      linear_combination (x + y - x * y) * mle (carry r o 0) xs * h2
    · show _ * mle (carry r o 1) xs = (1 - x) * 0 + x * ((1 - y) * mle (carry r o 1) xs)
      ring
  · have key := fun i hi => carry_odd r o i y (hl ▸ hi : i < 2 ^ r.length) ho
    rw [mle_congr fun i hi => (key i hi).1, mle_congr fun i hi => (key i hi).2.1,
      mle_congr fun i hi => (key i hi).2.2.1, mle_congr fun i hi => (key i hi).2.2.2]
    rw [mle_add, mle_smul, mle_smul, mle_smul, mle_smul, mle_zero, if_pos (by simp [ho])]
    refine Prod.ext ?_ ?_
    · show _ * mle (carry r o 0) xs = (1 - x) * (y * mle (carry r o 0) xs) + x * 0
      ring
    · show _ * mle (carry r o 0) xs + _ * mle (carry r o 1) xs = (1 - x) * ((1 - y) * mle (carry r o 1) xs) +
        x * ((1 - y) * mle (carry r o 0) xs + y * mle (carry r o 1) xs)
      linear_combination (x + y - x * y) * mle (carry r o 1) xs * h2

theorem shiftLoop_eq (h2 : (2 : F) = 0) (o : Nat) (xs ys : List F) : ∀ xs0 ys0 : List F, xs0.length = ys0.length →
    xs.length = ys.length → ∀ k, k = ys0.length →
    shiftLoop o k xs ys (mle (carry ys0 o 0) xs0, mle (carry ys0 o 1) xs0) =
      (mle (carry (ys0 ++ ys) o 0) (xs0 ++ xs), mle (carry (ys0 ++ ys) o 1) (xs0 ++ xs)) := by
  induction xs generalizing ys with
  | nil =>
    intro xs0 ys0 h0 h k _
    have : ys = [] := List.length_eq_zero_iff.1 h.symm
    subst this; simp [shiftLoop]
  | cons x xs ih =>
    intro xs0 ys0 h0 h k hk
    obtain _ | ⟨y, ys⟩ := ys
    · simp at h
    subst hk
    rw [shiftLoop, shiftStep_eq h2 xs0 ys0 o x y h0,
      ih ys (xs0 ++ [x]) (ys0 ++ [y]) (by simp [h0]) (by simpa using h) _ (by simp)]
    simp

theorem carry_nil (o c i : Nat) : carry ([] : List F) o c i = if i = c then 1 else 0 := by
  simp [carry, Nat.mod_one]

theorem shiftLoop_start (h2 : (2 : F) = 0) (o : Nat) (xs ys : List F) (h : xs.length = ys.length) :
    shiftLoop o 0 xs ys (1, 0) = (mle (carry ys o 0) xs, mle (carry ys o 1) xs) := by
  have := shiftLoop_eq h2 o xs ys [] [] rfl h 0 rfl
  simpa [carry_nil] using this

/-! ### The tables -/

/-- The buffers hold the level `k` tables in their first `2^k` entries. -/
def BufInv (size : Nat) (o : Nat) (r : List F) (k : Nat) (s : Bufs F) : Prop :=
  s.p.size = size ∧ s.pp.size = size ∧
    ∀ i < 2 ^ k, s.p.val i = carry (r.take k) o 0 i ∧ s.pp.val i = carry (r.take k) o 1 i

theorem take_succ_eq {α : Type*} (r : List α) (k : Nat) (h : k < r.length) : r.take (k + 1) = r.take k ++ [r[k]] := by
  rw [List.take_succ, List.getElem?_eq_getElem h]; rfl

theorem fromFn_lo (w k : Nat) (lo hi : Nat → F) (old : Slice F) (h : 2 ^ k * 2 ≤ 2 ^ w) (i : Nat) (hi' : i < 2 ^ k) :
    (fromFn w k lo hi old).val i = lo i :=
  (if_pos (by omega)).trans (if_pos hi')

theorem fromFn_hi (w k : Nat) (lo hi : Nat → F) (old : Slice F) (h : 2 ^ k * 2 ≤ 2 ^ w) (i : Nat) (hi' : i < 2 ^ k) :
    (fromFn w k lo hi old).val (i + 2 ^ k) = hi i := by
  refine (if_pos (by omega)).trans ((if_neg (by omega)).trans ((if_pos ?_).trans ?_))
  · rw [Nat.pow_succ]; omega
  · rw [Nat.add_sub_cancel]

theorem withinStep_ok (w size o : Nat) (r : List F) (k : Nat) (s : Bufs F) (hk : k < r.length) (hkw : k < w)
    (hs : BufInv size o r k s) : ∃ s', withinStep w o r k s = some s' ∧ BufInv size o r (k + 1) s' := by
  obtain ⟨h1, h2, h3⟩ := hs
  have hl : (r.take k).length = k := by rw [List.length_take]; omega
  have hpw : 2 ^ (k + 1) ≤ 2 ^ w := Nat.pow_le_pow_right (by omega) hkw
  have hp : 2 ^ (k + 1) = 2 ^ k * 2 := Nat.pow_succ _ _
  unfold withinStep
  rw [List.getElem?_eq_getElem hk]
  refine ⟨_, rfl, ?_⟩
  unfold BufInv
  rw [take_succ_eq r k hk]
  rcases Nat.mod_two_eq_zero_or_one (o / 2 ^ k) with ho | ho
  · rw [if_neg (by omega)]
    refine ⟨h1, h2, fun i hi => ?_⟩
    rcases Nat.lt_or_ge i (2 ^ k) with h | h
    · obtain ⟨c1, c2, c3, c4⟩ := carry_even (r.take k) o i r[k] (by rwa [hl]) (by rwa [hl])
      rw [fromFn_lo _ _ _ _ _ (by omega) _ h, fromFn_lo _ _ _ _ _ (by omega) _ h, c1, c3, (h3 i h).1, (h3 i h).2]
      exact ⟨by unfold evenStep; ring, rfl⟩
    · obtain ⟨i, rfl⟩ : ∃ j, i = j + 2 ^ k := ⟨i - 2 ^ k, by omega⟩
      obtain ⟨c1, c2, c3, c4⟩ := carry_even (r.take k) o i r[k] (by rw [hl]; omega) (by rwa [hl])
      rw [hl] at c2 c4
      rw [fromFn_hi _ _ _ _ _ (by omega) _ (by omega), fromFn_hi _ _ _ _ _ (by omega) _ (by omega), c2, c4, (h3 i (by omega)).1,
        (h3 i (by omega)).2]
      exact ⟨by unfold evenStep; ring, by unfold evenStep; ring⟩
  · rw [if_pos ho]
    refine ⟨h1, h2, fun i hi => ?_⟩
    rcases Nat.lt_or_ge i (2 ^ k) with h | h
    · obtain ⟨c1, c2, c3, c4⟩ := carry_odd (r.take k) o i r[k] (by rwa [hl]) (by rwa [hl])
      rw [fromFn_lo _ _ _ _ _ (by omega) _ h, fromFn_lo _ _ _ _ _ (by omega) _ h, c1, c3, (h3 i h).1, (h3 i h).2]
      exact ⟨by unfold oddStep; ring, by unfold oddStep; ring⟩
    · obtain ⟨i, rfl⟩ : ∃ j, i = j + 2 ^ k := ⟨i - 2 ^ k, by omega⟩
      obtain ⟨c1, c2, c3, c4⟩ := carry_odd (r.take k) o i r[k] (by rw [hl]; omega) (by rwa [hl])
      rw [hl] at c2 c4
      rw [fromFn_hi _ _ _ _ _ (by omega) _ (by omega), fromFn_hi _ _ _ _ _ (by omega) _ (by omega), c2, c4, (h3 i (by omega)).1,
        (h3 i (by omega)).2]
      exact ⟨rfl, by unfold oddStep; ring⟩

/-- The buffers after the lanes of the flat indices below `h` have been processed, `N` being the number of valid
entries. -/
def LaneInv (odd : Bool) (rk : F) (N : Nat) (s0 : Bufs F) (h : Nat) (s : Bufs F) : Prop :=
  s.p.size = s0.p.size ∧ s.pp.size = s0.pp.size ∧
  (∀ i < h, s.p.val i = (if odd then (oddStep (s0.p.val i) (s0.pp.val i) rk).2.2
      else (evenStep (s0.p.val i) (s0.pp.val i) rk).1) ∧
    s.p.val (i + N) = (if odd then 0 else (evenStep (s0.p.val i) (s0.pp.val i) rk).2.1) ∧
    s.pp.val i = (if odd then (oddStep (s0.p.val i) (s0.pp.val i) rk).1 else 0) ∧
    s.pp.val (i + N) = (if odd then (oddStep (s0.p.val i) (s0.pp.val i) rk).2.1
      else (evenStep (s0.p.val i) (s0.pp.val i) rk).2.2)) ∧
  ∀ i, h ≤ i → i < N → s.p.val i = s0.p.val i ∧ s.pp.val i = s0.pp.val i

theorem bufLane_ok (odd : Bool) (rk : F) (N : Nat) (s0 s : Bufs F) (h : Nat) (hN : h < N)
    (hp : 2 * N ≤ s0.p.size) (hpp : 2 * N ≤ s0.pp.size) (hs : LaneInv odd rk N s0 h s) :
    ∃ s', bufLane odd rk h (h + N) s = some s' ∧ LaneInv odd rk N s0 (h + 1) s' := by
  obtain ⟨h1, h2, h3, h4⟩ := hs
  obtain ⟨e1, e2⟩ := h4 h (le_refl _) hN
  unfold bufLane
  rw [Slice.get?_of_lt (by omega), Slice.get?_of_lt (by omega)]
  cases odd with
  | true =>
    simp only [Option.bind_eq_bind, Option.bind_some, if_true]
    rw [Slice.set?_of_lt (by omega)]
    simp only [Option.bind_some]
    rw [Slice.set?_of_lt (by show h + N < s.pp.size; omega)]
    simp only [Option.bind_some]
    rw [Slice.set?_of_lt (by omega)]
    simp only [Option.bind_some]
    rw [Slice.set?_of_lt (by show h + N < s.p.size; omega)]
    refine ⟨_, rfl, h1, h2, fun i hi => ?_, fun i hi hi' => ?_⟩
    · simp only [if_true] at h3 ⊢
      rcases Nat.lt_or_ge i h with hlt | hge
      · rw [if_neg (by omega), if_neg (by omega), if_neg (by omega), if_neg (by omega), if_neg (by omega),
          if_neg (by omega), if_neg (by omega), if_neg (by omega)]
        exact h3 i hlt
      · obtain rfl : i = h := by omega
        rw [if_neg (by omega), if_pos rfl, if_pos rfl, if_neg (by omega), if_pos rfl, if_pos rfl, e1, e2]
        exact ⟨rfl, rfl, rfl, rfl⟩
    · simp only
      rw [if_neg (by omega), if_neg (by omega), if_neg (by omega), if_neg (by omega)]
      exact h4 i (by omega) hi'
  | false =>
    simp only [Option.bind_eq_bind, Option.bind_some, Bool.false_eq_true, if_false]
    rw [Slice.set?_of_lt (by omega)]
    simp only [Option.bind_some]
    rw [Slice.set?_of_lt (by show h + N < s.p.size; omega)]
    simp only [Option.bind_some]
    rw [Slice.set?_of_lt (by omega)]
    simp only [Option.bind_some]
    rw [Slice.set?_of_lt (by show h + N < s.pp.size; omega)]
    refine ⟨_, rfl, h1, h2, fun i hi => ?_, fun i hi hi' => ?_⟩
    · simp only [Bool.false_eq_true, if_false] at h3 ⊢
      rcases Nat.lt_or_ge i h with hlt | hge
      · rw [if_neg (by omega), if_neg (by omega), if_neg (by omega), if_neg (by omega), if_neg (by omega),
          if_neg (by omega), if_neg (by omega), if_neg (by omega)]
        exact h3 i hlt
      · obtain rfl : i = h := by omega
        rw [if_neg (by omega), if_pos rfl, if_pos rfl, if_neg (by omega), if_pos rfl, if_pos rfl, e1, e2]
        exact ⟨rfl, rfl, rfl, rfl⟩
    · simp only
      rw [if_neg (by omega), if_neg (by omega), if_neg (by omega), if_neg (by omega)]
      exact h4 i (by omega) hi'

theorem bufStep_ok (w size o : Nat) (r : List F) (k : Nat) (s : Bufs F) (hk : w + k < r.length)
    (hsz : 2 ^ (w + k + 1) ≤ size) (hs : BufInv size o r (w + k) s) :
    ∃ s', bufStep w (o / 2 ^ w) (r.drop w) k s = some s' ∧ BufInv size o r (w + k + 1) s' := by
  obtain ⟨h1, h2, h3⟩ := hs
  have hl : (r.take (w + k)).length = w + k := by rw [List.length_take]; omega
  have hN : 2 ^ (w + k) = 2 ^ k * 2 ^ w := by rw [Nat.add_comm, Nat.pow_add]
  have hp : 2 ^ (w + k + 1) = 2 ^ (w + k) * 2 := Nat.pow_succ _ _
  have hdiv : o / 2 ^ w / 2 ^ k = o / 2 ^ (w + k) := by rw [Nat.div_div_eq_div_mul, ← Nat.pow_add]
  have hw := Nat.two_pow_pos w
  unfold bufStep
  rw [List.getElem?_drop, List.getElem?_eq_getElem hk, hdiv]
  simp only [Option.bind_some]
  generalize hodd : decide (o / 2 ^ (w + k) % 2 = 1) = odd
  have key := forRange_inv (n := 2 ^ k) (s := s)
    (body := fun i s => forRange (2 ^ w) (fun l s => bufLane odd r[w + k] (i * 2 ^ w + l)
      ((2 ^ k ||| i) * 2 ^ w + l) s) s)
    (fun i s' => LaneInv odd r[w + k] (2 ^ (w + k)) s (i * 2 ^ w) s')
    ⟨rfl, rfl, fun i hi => by omega, fun i _ _ => ⟨rfl, rfl⟩⟩
    (fun i hi s1 hs1 => by
      have hor : 2 ^ k ||| i = 2 ^ k + i := by
        have := Nat.two_pow_add_eq_or_of_lt hi 1
        simpa using this.symm
      have hi2 : (i + 1) * 2 ^ w ≤ 2 ^ k * 2 ^ w := Nat.mul_le_mul_right _ hi
      rw [Nat.succ_mul] at hi2
      obtain ⟨s2, hs2, hinv⟩ := forRange_inv (n := 2 ^ w) (s := s1)
        (body := fun l s => bufLane odd r[w + k] (i * 2 ^ w + l) ((2 ^ k ||| i) * 2 ^ w + l) s)
        (fun l s' => LaneInv odd r[w + k] (2 ^ (w + k)) s (i * 2 ^ w + l) s') hs1
        (fun l hl s2 hs2 => by
          have e : (2 ^ k ||| i) * 2 ^ w + l = i * 2 ^ w + l + 2 ^ (w + k) := by
            rw [hor, Nat.add_mul, hN]; omega
          show ∃ s', bufLane odd r[w + k] (i * 2 ^ w + l) ((2 ^ k ||| i) * 2 ^ w + l) s2 = some s' ∧ _
          rw [e]
          exact bufLane_ok odd r[w + k] (2 ^ (w + k)) s s2 (i * 2 ^ w + l) (by omega) (by omega) (by omega) hs2)
      exact ⟨s2, hs2, by rw [Nat.succ_mul]; exact hinv⟩)
  obtain ⟨s', hs', h4, h5, h6, -⟩ := key
  refine ⟨s', hs', by omega, by omega, fun i hi => ?_⟩
  rw [take_succ_eq r (w + k) hk]
  rcases Nat.mod_two_eq_zero_or_one (o / 2 ^ (w + k)) with ho | ho
  · obtain rfl : odd = false := by rw [← hodd]; simp [ho]
    simp only [Bool.false_eq_true, if_false] at h6
    rcases Nat.lt_or_ge i (2 ^ (w + k)) with h | h
    · obtain ⟨c1, c2, c3, c4⟩ := carry_even (r.take (w + k)) o i r[w + k] (by rwa [hl]) (by rwa [hl])
      obtain ⟨d1, d2, d3, d4⟩ := h6 i (by omega)
      rw [d1, d3, c1, c3, (h3 i h).1, (h3 i h).2]
      exact ⟨by unfold evenStep; ring, rfl⟩
    · obtain ⟨i, rfl⟩ : ∃ j, i = j + 2 ^ (w + k) := ⟨i - 2 ^ (w + k), by omega⟩
      obtain ⟨c1, c2, c3, c4⟩ := carry_even (r.take (w + k)) o i r[w + k] (by rw [hl]; omega) (by rwa [hl])
      obtain ⟨d1, d2, d3, d4⟩ := h6 i (by omega)
      rw [hl] at c2 c4
      rw [d2, d4, c2, c4, (h3 i (by omega)).1, (h3 i (by omega)).2]
      exact ⟨by unfold evenStep; ring, by unfold evenStep; ring⟩
  · obtain rfl : odd = true := by rw [← hodd]; simp [ho]
    simp only [if_true] at h6
    rcases Nat.lt_or_ge i (2 ^ (w + k)) with h | h
    · obtain ⟨c1, c2, c3, c4⟩ := carry_odd (r.take (w + k)) o i r[w + k] (by rwa [hl]) (by rwa [hl])
      obtain ⟨d1, d2, d3, d4⟩ := h6 i (by omega)
      rw [d1, d3, c1, c3, (h3 i h).1, (h3 i h).2]
      exact ⟨by unfold oddStep; ring, by unfold oddStep; ring⟩
    · obtain ⟨i, rfl⟩ : ∃ j, i = j + 2 ^ (w + k) := ⟨i - 2 ^ (w + k), by omega⟩
      obtain ⟨c1, c2, c3, c4⟩ := carry_odd (r.take (w + k)) o i r[w + k] (by rw [hl]; omega) (by rwa [hl])
      obtain ⟨d1, d2, d3, d4⟩ := h6 i (by omega)
      rw [hl] at c2 c4
      rw [d2, d4, c2, c4, (h3 i (by omega)).1, (h3 i (by omega)).2]
      exact ⟨rfl, by unfold oddStep; ring⟩

theorem partialEvaluate_ok (w b o : Nat) (r : List F) (hr : r.length = b) (ho : 0 < o) (ho' : o < 2 ^ b) :
    ∃ s, partialEvaluateHypercube w b o r = some (.ok s) ∧ BufInv (2 ^ (b - w) * 2 ^ w) o r b s := by
  unfold partialEvaluateHypercube assertValidShiftIndArgs
  rw [if_neg (not_not.2 hr), if_neg (by omega)]
  simp only
  obtain ⟨s, h1, h2⟩ := forRange_inv (n := min b w) (body := withinStep w o r)
    (s := ⟨⟨2 ^ (b - w) * 2 ^ w, fun _ => 1⟩, ⟨2 ^ (b - w) * 2 ^ w, fun _ => 0⟩⟩)
    (fun k s => BufInv (2 ^ (b - w) * 2 ^ w) o r k s)
    ⟨rfl, rfl, fun i hi => by
      have : i = 0 := by simpa using hi
      subst this
      simp [carry_nil]⟩
    (fun k hk s hs => withinStep_ok w _ o r k s (by omega) (by omega) hs)
  rw [h1, Option.bind_some]
  split
  · rename_i hw
    rw [show min b w = w by omega] at h2
    obtain ⟨s', h3, h4⟩ := forRange_inv (n := b - w) (body := bufStep w (o / 2 ^ w) (r.drop w)) (s := s)
      (fun k s => BufInv (2 ^ (b - w) * 2 ^ w) o r (w + k) s) h2
      (fun k hk s hs => bufStep_ok w _ o r k s (by omega) (by
        rw [← Nat.pow_add]; exact Nat.pow_le_pow_right (by omega) (by omega)) hs)
    rw [show w + (b - w) = b by omega] at h4
    exact ⟨s', by unfold withBuffers; rw [h3]; rfl, h4⟩
  · rw [show min b w = b by omega] at h2
    exact ⟨s, rfl, h2⟩

end Verif.Transparent
