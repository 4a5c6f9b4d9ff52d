import Verif.Sumcheck.ModelProverState
import Verif.Math.PropsFold
import Verif.Math.PropsArith
import Verif.Math.PropsSubspace
import Verif.Sumcheck.LemmasSumcheck

/-! Lemmas for C66: the tables that the sumcheck multilinears stand for, and folding them. -/

set_option linter.unusedSectionVars false

namespace Verif.Sumcheck

open Verif.Mle Verif.Univariate Verif.Tensor Verif.Fold Finset

variable {F D : Type} [Field F] [DecidableEq F] [Field D] [DecidableEq D]

theorem ebind_ok {A B : Type} (a : A) (f : A → Except Error B) : (Except.ok a).bind f = f a := rfl

theorem collect_eq {A B : Type} (l : List A) (f : A → Except Error B) (g : A → B)
    (h : ∀ a ∈ l, f a = .ok (g a)) : collect (l.map f) = .ok (l.map g) := by
  induction l with
  | nil => rfl
  | cons a l ih =>
    rw [List.map_cons, List.map_cons, h a (List.mem_cons_self ..), collect,
      ih fun b hb => h b (List.mem_cons_of_mem _ hb)]

theorem collect_exists {A B : Type} (l : List A) (f : A → Except Error B) (P : A → B → Prop)
    (h : ∀ a ∈ l, ∃ b, f a = .ok b ∧ P a b) : ∃ bs, collect (l.map f) = .ok bs ∧ List.Forall₂ P l bs := by
  induction l with
  | nil => exact ⟨[], rfl, .nil⟩
  | cons a l ih =>
    obtain ⟨b, hb, hp⟩ := h a (List.mem_cons_self ..)
    obtain ⟨bs, hbs, hps⟩ := ih fun b hb => h b (List.mem_cons_of_mem _ hb)
    exact ⟨b :: bs, by rw [List.map_cons, hb, collect, hbs], .cons hp hps⟩

theorem listRange_sum (n : Nat) (f : Nat → F) : ((List.range n).map f).sum = ∑ v ∈ range n, f v := by
  induction n with
  | zero => simp
  | succ n ih => rw [List.range_succ, List.map_append, List.sum_append, ih, Finset.sum_range_succ]; simp

theorem sumE_ok (n : Nat) (f : Nat → Except Error F) (g : Nat → F) (h : ∀ i < n, f i = .ok (g i)) :
    sumE n f = .ok (∑ i ∈ range n, g i) := by
  induction n with
  | zero => rfl
  | succ n ih =>
    rw [sumE, ih fun i hi => h i (by omega), ebind_ok, h n (by omega), ebind_ok, Finset.sum_range_succ]

/-! ## The current table -/

/-- The table of the multilinear `t` in `N` variables after folding with the challenges `rs`. -/
def cur (order : EvaluationOrder) (N : Nat) (t : Nat → F) (rs : List F) (x : Nat) : F :=
  match order with
  | .lowToHigh => mle (fun i => t (i + 2 ^ rs.length * x)) rs
  | .highToLow => mle (fun i => t (x + 2 ^ (N - rs.length) * i)) rs.reverse

theorem cur_nil (order : EvaluationOrder) (N : Nat) (t : Nat → F) (x : Nat) : cur order N t [] x = t x := by
  cases order <;> simp [cur]

/-- The two values between which a round interpolates. -/
def half (order : EvaluationOrder) (n : Nat) (b : Nat) (x : Nat) : Nat :=
  match order with
  | .lowToHigh => 2 * x + b
  | .highToLow => x + 2 ^ n * b

theorem cur_snoc (order : EvaluationOrder) (N n : Nat) (t : Nat → F) (rs : List F) (hn : N = n + 1 + rs.length)
    (r : F) (x : Nat) : cur order N t (rs ++ [r]) x =
      (1 - r) * cur order N t rs (half order n 0 x) + r * cur order N t rs (half order n 1 x) := by
  cases order with
  | lowToHigh =>
    simp only [cur, half, List.length_append, List.length_singleton]
    rw [mle_snoc]
    congr 2
    · congr 1
      funext i
      congr 1
      ring
    · congr 1
      funext i
      congr 1
      ring
  | highToLow =>
    simp only [cur, half, List.length_append, List.length_singleton, List.reverse_append, List.reverse_singleton,
      List.singleton_append]
    rw [mle_cons, mle_add, mle_smul, mle_smul]
    have e1 : N - (rs.length + 1) = n := by omega
    have e2 : N - rs.length = n + 1 := by omega
    rw [e1, e2]
    congr 2
    · congr 1
      funext i
      congr 1
      ring
    · congr 1
      funext i
      congr 1
      ring

theorem half_lt (order : EvaluationOrder) (n b x : Nat) (hb : b < 2) (hx : x < 2 ^ n) :
    half order n b x < 2 ^ (n + 1) := by
  have hp := pow_succ 2 n
  unfold half
  cases order with
  | lowToHigh => show 2 * x + b < _; omega
  | highToLow =>
    show x + 2 ^ n * b < _
    have : 2 ^ n * b ≤ 2 ^ n * 1 := Nat.mul_le_mul_left _ (by omega)
    omega

/-! ## What a sumcheck multilinear stands for -/

/-- The value of a folded multilinear. -/
def foldedVal (evals : Slice F) (sv : F) (x : Nat) : F := if x < evals.size then evals.val x else sv

/-- The sumcheck multilinear stands for the multilinear `t` in `N` variables after folding with `rs`, `n`
variables remaining. -/
def Stands (w : Nat) (order : EvaluationOrder) (N n : Nat) (t : Nat → F) (rs : List F) : SumMultilin F → Prop
  | .transparent N' t' _ (sv, sl) => N' = N ∧ (∀ x < 2 ^ N, t' x = t x) ∧ sl ≤ 2 ^ N ∧
      ∀ x, 2 ^ N - sl ≤ x → x < 2 ^ N → t x = sv
  | .folded evals sv => (∃ p, evals.size = p * 2 ^ w ∧ p ≤ 2 ^ (n - w)) ∧
      ∀ x < 2 ^ n, foldedVal evals sv x = cur order N t rs x

theorem divCeil_bounds (a b : Nat) (hb : 0 < b) : a ≤ divCeil a b * b ∧ divCeil a b * b < a + b := by
  unfold divCeil
  have h1 := Nat.div_add_mod (a + b - 1) b
  have h2 := Nat.mod_lt (a + b - 1) hb
  rw [Nat.mul_comm b] at h1
  omega

theorem divCeil_le {a b c : Nat} (hb : 0 < b) (h : a ≤ c * b) : divCeil a b ≤ c := by
  have := (divCeil_bounds a b hb).2
  have : divCeil a b * b < (c + 1) * b := by rw [Nat.add_mul]; omega
  have := Nat.lt_of_mul_lt_mul_right this
  omega

/-! ### Folding a folded multilinear -/

theorem foldLow_folded (w bits N n : Nat) (t : Nat → F) (rs : List F) (r : F) (q : Option (Query F)) (evals : Slice F) (sv : F)
    (hn : N = n + 1 + rs.length) (h : Stands w .lowToHigh N (n + 1) t rs (.folded evals sv)) :
    ∃ m, foldLow w bits (n + 1) r q (.folded evals sv) = .ok (m, false) ∧
      Stands w .lowToHigh N n t (rs ++ [r]) m ∧ m.switchover? = none := by
  obtain ⟨⟨p, hp, hp'⟩, hv⟩ := h
  have hW := Nat.two_pow_pos w
  have hpl : packedLen w evals = p := by unfold packedLen; rw [hp, Nat.mul_div_cancel _ hW]
  have hdc := divCeil_bounds p 2 (by omega)
  obtain ⟨o, ho, hos, hov⟩ := foldRightLerp_eq (RingHom.id F) w evals (p * 2 ^ w) r sv
    ⟨divCeil p 2 * 2 ^ w, fun _ => 0⟩ (by omega)
    (by show _ ≤ divCeil p 2 * 2 ^ w * 2
        rw [Nat.mul_right_comm]; exact Nat.mul_le_mul_right _ hdc.1) ⟨divCeil p 2, Nat.mul_comm _ _⟩
  have hos' : o.size = divCeil p 2 * 2 ^ w := hos
  -- the new values
  have hval : ∀ x < 2 ^ n, (if x < (p * 2 ^ w + 1) / 2 then o.val x else sv) = cur .lowToHigh N t (rs ++ [r]) x := by
    intro x hx
    rw [cur_snoc .lowToHigh N n t rs hn r x, ← hv _ (half_lt .lowToHigh n 0 x (by omega) hx),
      ← hv _ (half_lt .lowToHigh n 1 x (by omega) hx)]
    unfold foldedVal half
    simp only [Nat.add_zero, hp]
    by_cases hx' : x < (p * 2 ^ w + 1) / 2
    · rw [if_pos hx', hov, if_pos hx', if_pos (show 2 * x < p * 2 ^ w by omega)]
      rfl
    · rw [if_neg hx', if_neg (by omega), if_neg (by omega)]
      ring
  unfold foldLow
  simp only [hpl]
  rw [show foldRightLerp id w evals (p * 2 ^ w) r sv ⟨divCeil p 2 * 2 ^ w, fun _ => 0⟩ = some (.ok o) from ho]
  simp only [ofMath, ebind_ok]
  refine ⟨_, rfl, ⟨?_, ?_⟩, rfl⟩
  · refine ⟨divCeil p 2, ?_, ?_⟩
    · split <;> exact hos'
    · refine divCeil_le (by omega) ?_
      by_cases hw : w ≤ n
      · have : n + 1 - w = (n - w) + 1 := by omega
        rw [this, pow_succ] at hp'
        exact hp'
      · have : n + 1 - w = 0 := by omega
        rw [this] at hp'
        have := Nat.two_pow_pos (n - w)
        omega
  · intro x hx
    rw [← hval x hx]
    unfold foldedVal
    by_cases hodd : p ≠ 0 ∧ p % 2 = 1 ∧ w > 0
    · rw [if_pos hodd]
      obtain ⟨w', rfl⟩ : ∃ w', w = w' + 1 := ⟨w - 1, by omega⟩
      obtain ⟨c, rfl⟩ : ∃ c, p = 2 * c + 1 := ⟨p / 2, by omega⟩
      have hd : divCeil (2 * c + 1) 2 = c + 1 := by unfold divCeil; omega
      have hW' := Nat.two_pow_pos w'
      have e1 : ((2 * c + 1) * 2 ^ (w' + 1) + 1) / 2 = c * 2 ^ (w' + 1) + 2 ^ w' := by
        rw [pow_succ, show (2 * c + 1) * (2 ^ w' * 2) = 2 * (c * (2 ^ w' * 2) + 2 ^ w') by ring]
        omega
      have e2 : 2 ^ (w' + 1) / 2 = 2 ^ w' := by rw [pow_succ]; omega
      have e3 : o.size = c * 2 ^ (w' + 1) + 2 ^ (w' + 1) := by rw [hos', hd, Nat.add_mul, Nat.one_mul]
      have e4 : 2 ^ (w' + 1) = 2 ^ w' * 2 := pow_succ 2 w'
      simp only [e1, e2, e3]
      by_cases hx1 : x < c * 2 ^ (w' + 1) + 2 ^ w'
      · rw [if_pos hx1, if_pos (by omega), if_neg (by omega)]
      · rw [if_neg hx1]
        by_cases hx2 : x < c * 2 ^ (w' + 1) + 2 ^ (w' + 1)
        · rw [if_pos hx2, if_pos (by omega)]
        · rw [if_neg hx2]
    · rw [if_neg hodd]
      have e : o.size = (p * 2 ^ w + 1) / 2 := by
        rw [hos']
        by_cases hw : w = 0
        · subst hw
          simp only [pow_zero, Nat.mul_one]
          unfold divCeil
          omega
        · have he : p % 2 = 0 := by
            by_contra hne
            exact hodd ⟨by omega, by omega, by omega⟩
          obtain ⟨c, rfl⟩ : ∃ c, p = 2 * c := ⟨p / 2, by omega⟩
          have : divCeil (2 * c) 2 = c := by unfold divCeil; omega
          rw [this, Nat.mul_assoc]
          omega
      rw [e]

theorem foldHigh_folded (w bits N n : Nat) (t : Nat → F) (rs : List F) (r : F) (q : Option (Query F)) (evals : Slice F)
    (sv : F) (hn : N = n + 1 + rs.length) (h : Stands w .highToLow N (n + 1) t rs (.folded evals sv)) :
    ∃ m, foldHigh w bits (n + 1) r q (.folded evals sv) = .ok (m, false) ∧
      Stands w .highToLow N n t (rs ++ [r]) m ∧ m.switchover? = none := by
  obtain ⟨⟨p, hp, hp'⟩, hv⟩ := h
  have hW := Nat.two_pow_pos w
  have h2n : 2 ^ (n + 1) = 2 ^ n * 2 := pow_succ 2 n
  have hpl : packedLen w evals * 2 ^ w = evals.size := by
    unfold packedLen; rw [hp, Nat.mul_div_cancel _ hW]
  have hcur : ∀ x < 2 ^ n, cur .highToLow N t (rs ++ [r]) x =
      (1 - r) * foldedVal evals sv x + r * foldedVal evals sv (x + 2 ^ n) := by
    intro x hx
    rw [cur_snoc .highToLow N n t rs hn r x, ← hv _ (half_lt .highToLow n 0 x (by omega) hx),
      ← hv _ (half_lt .highToLow n 1 x (by omega) hx)]
    unfold half
    simp only [Nat.mul_zero, Nat.add_zero, Nat.mul_one]
  unfold foldHigh
  simp only [hpl]
  by_cases h0 : evals.size = 0
  · -- everything is the suffix
    have e : foldLeftLerpInplace w evals (min evals.size (2 ^ (n + 1))) sv (n + 1) r = some (.ok ⟨0, evals.val⟩) ∨
        foldLeftLerpInplace w evals (min evals.size (2 ^ (n + 1))) sv (n + 1) r = some (.ok evals) := by
      rw [h0, Nat.zero_min]
      unfold foldLeftLerpInplace checkLeftLerp
      rw [if_neg (by omega), if_neg (by omega), if_neg (by omega), if_neg (by simp)]
      dsimp only
      by_cases hw : n + 1 > w
      · left
        rw [if_pos hw]
        have d0 : divCeil 0 (2 ^ w) = 0 := by
          unfold divCeil; rw [Nat.zero_add]; exact Nat.div_eq_of_lt (by omega)
        rw [Nat.zero_sub, d0, if_neg (by omega)]
        simp only [Option.bind_some]
        rw [if_neg (by simp)]
        simp [forRange]
      · right
        rw [if_neg hw, if_neg (by omega)]
    have hst : ∀ o : Slice F, o.size = 0 → Stands w .highToLow N n t (rs ++ [r]) (.folded o sv) := by
      intro o ho
      refine ⟨⟨0, by rw [ho, Nat.zero_mul], Nat.zero_le _⟩, fun x hx => ?_⟩
      rw [hcur x hx]
      unfold foldedVal
      rw [ho, h0, if_neg (by omega), if_neg (by omega), if_neg (by omega)]
      ring
    rcases e with e | e
    · rw [e]
      simp only [ofMath, ebind_ok]
      exact ⟨_, rfl, hst _ rfl, rfl⟩
    · rw [e]
      simp only [ofMath, ebind_ok]
      exact ⟨_, rfl, hst _ h0, rfl⟩
  · have h2 := Nat.two_pow_pos (n + 1)
    obtain ⟨o, ho, hs1, hs2, hov⟩ := foldLeftLerpInplace_eq w evals (min evals.size (2 ^ (n + 1))) sv (n + 1) r
      (by omega) (Nat.min_le_right _ _) (by omega) (Nat.min_le_left _ _) ⟨p, by rw [hp, Nat.mul_comm]⟩
      (fun i hi hi' => by omega)
    rw [ho]
    simp only [ofMath, ebind_ok]
    rw [Nat.add_sub_cancel] at hs1 hov
    have hpad : ∀ x < 2 ^ (n + 1), padded evals.val (min evals.size (2 ^ (n + 1))) sv x = foldedVal evals sv x := by
      intro x hx
      unfold padded foldedVal
      by_cases hx' : x < evals.size
      · rw [if_pos (by omega), if_pos hx']
      · rw [if_neg (by omega), if_neg hx']
    refine ⟨_, rfl, ⟨?_, fun x hx => ?_⟩, rfl⟩
    · by_cases hw : w < n + 1
      · have e := hs1 hw
        have hdiv : 2 ^ n = 2 ^ (n - w) * 2 ^ w := by rw [← pow_add]; congr 1; omega
        rw [hdiv, Nat.mul_min_mul_right] at e
        exact ⟨_, e, Nat.min_le_right _ _⟩
      · refine ⟨p, by rw [hs2 (by omega), hp], ?_⟩
        have : n + 1 - w = 0 := by omega
        rw [this] at hp'
        exact hp'.trans (Nat.two_pow_pos (n - w))
    · rw [hcur x hx]
      have hc := hov x hx
      unfold foldedVal at *
      by_cases hx' : x < o.size
      · rw [if_pos hx', hc hx', hpad x (by omega), hpad (x + 2 ^ n) (by omega)]
      · rw [if_neg hx']
        have hxe : ¬ x < evals.size := by
          by_cases hw : w < n + 1
          · have e := hs1 hw
            have := (divCeil_bounds (min evals.size (2 ^ (n + 1))) (2 ^ w) hW).1
            omega
          · rw [hs2 (by omega)] at hx'
            exact hx'
        rw [if_neg hxe, if_neg (by omega)]
        ring

/-! ### Reading a transparent multilinear -/

/-- `q` holds the expansion of the challenges. -/
def QueryOk (w : Nat) (order : EvaluationOrder) (q : Query F) (rs : List F) : Prop :=
  Tensor.Represents w q (match order with | .lowToHigh => rs | .highToLow => rs.reverse)

theorem queryOk_spec {w : Nat} {order : EvaluationOrder} {q : Query F} {rs : List F} (h : QueryOk w order q rs) :
    q.nVars = rs.length ∧ ∃ e, q.expansion w = some e ∧ ∀ b < 2 ^ rs.length,
      e.val b = eqWeight (match order with | .lowToHigh => rs | .highToLow => rs.reverse) b := by
  obtain ⟨h1, e, h2, -, h3⟩ := represents_expansion h
  have hl : (match order with | .lowToHigh => rs | .highToLow => rs.reverse).length = rs.length := by
    cases order <;> simp
  rw [hl] at h1 h3
  exact ⟨h1, e, h2, h3⟩

theorem lowSum_eq {rs : List F} {N n : Nat} (t : Nat → F) (hn : N = n + rs.length) {e : Slice F}
    (he : ∀ b < 2 ^ rs.length, e.val b = eqWeight rs b) (x : Nat) (t' : Nat → F) (ht : ∀ x < 2 ^ N, t' x = t x) (hx : x < 2 ^ n) :
    (∑ i ∈ range (2 ^ rs.length), e.val i * t' (i + 2 ^ rs.length * x)) = cur .lowToHigh N t rs x := by
  unfold cur mle
  refine Finset.sum_congr rfl fun i hi => ?_
  have hi := Finset.mem_range.1 hi
  rw [he i hi, ht]
  rw [hn, pow_add]
  calc i + 2 ^ rs.length * x < 2 ^ rs.length + 2 ^ rs.length * x := by omega
    _ = (x + 1) * 2 ^ rs.length := by ring
    _ ≤ 2 ^ n * 2 ^ rs.length := Nat.mul_le_mul_right _ hx

theorem highSum_eq {rs : List F} {N n : Nat} (t : Nat → F) (hn : N = n + rs.length) {e : Slice F}
    (he : ∀ b < 2 ^ rs.length, e.val b = eqWeight rs.reverse b) (x : Nat) (t' : Nat → F) (ht : ∀ x < 2 ^ N, t' x = t x)
    (hx : x < 2 ^ n) :
    (∑ i ∈ range (2 ^ rs.length), e.val i * t' (x + 2 ^ (N - rs.length) * i)) = cur .highToLow N t rs x := by
  unfold cur mle
  rw [List.length_reverse]
  refine Finset.sum_congr rfl fun i hi => ?_
  have hi := Finset.mem_range.1 hi
  have e1 : N - rs.length = n := by omega
  rw [he i hi, ht]
  rw [e1, hn, pow_add]
  calc x + 2 ^ n * i < 2 ^ n + 2 ^ n * i := by omega
    _ = 2 ^ n * (i + 1) := by ring
    _ ≤ 2 ^ n * 2 ^ rs.length := Nat.mul_le_mul_left _ hi

theorem or_add {a b k : Nat} (hb : b < 2 ^ k) : a <<< k ||| b = a * 2 ^ k + b := by
  rw [Nat.shiftLeft_eq, Nat.mul_comm, ← Nat.two_pow_add_eq_or_of_lt hb]

/-- The index computed in `subcube_partial_high_evals`. -/
theorem high_index {idx s i m v : Nat} (hv : v < 2 ^ s) (hidx : idx < 2 ^ (m - s)) (hs : s ≤ m) :
    idx <<< s ||| i <<< m ||| v = idx * 2 ^ s + v + 2 ^ m * i := by
  have hlt : idx * 2 ^ s + v < 2 ^ m := by
    calc idx * 2 ^ s + v < idx * 2 ^ s + 2 ^ s := by omega
      _ = (idx + 1) * 2 ^ s := by ring
      _ ≤ 2 ^ (m - s) * 2 ^ s := Nat.mul_le_mul_right _ hidx
      _ = 2 ^ m := by rw [← pow_add]; congr 1; omega
  rw [Nat.or_assoc, Nat.or_comm (i <<< m), ← Nat.or_assoc, or_add hv, Nat.or_comm, or_add hlt]
  ring

theorem subcubePartialLow_ok {w N n : Nat} {t t' : Nat → F} {q : Query F} {rs : List F} (hn : N = n + rs.length)
    (hq : QueryOk w .lowToHigh q rs) (ht : ∀ x < 2 ^ N, t' x = t x) {s idx : Nat} (hs : s ≤ n) (hidx : idx < 2 ^ (n - s)) :
    ∃ f, subcubePartialLow w N t' q s idx = .ok f ∧ ∀ v < 2 ^ s, f v = cur .lowToHigh N t rs (idx * 2 ^ s + v) := by
  obtain ⟨h1, e, h2, h3⟩ := queryOk_spec hq
  unfold subcubePartialLow partialParams
  rw [h1, if_neg (by omega), if_neg (by rw [show N - rs.length - s = n - s by omega]; omega), h2]
  simp only [ebind_ok]
  refine ⟨_, rfl, fun v hv => ?_⟩
  rw [if_pos hv, listRange_sum, ← lowSum_eq t hn h3 (idx * 2 ^ s + v) t' ht]
  · refine Finset.sum_congr rfl fun i _ => ?_
    congr 2
    rw [Nat.shiftLeft_eq, Nat.shiftLeft_eq, pow_add]
    ring
  · calc idx * 2 ^ s + v < idx * 2 ^ s + 2 ^ s := by omega
      _ = (idx + 1) * 2 ^ s := by ring
      _ ≤ 2 ^ (n - s) * 2 ^ s := Nat.mul_le_mul_right _ hidx
      _ = 2 ^ n := by rw [← pow_add]; congr 1; omega

theorem subcubePartialHigh_ok {w N n : Nat} {t t' : Nat → F} {q : Query F} {rs : List F} (hn : N = n + rs.length)
    (hq : QueryOk w .highToLow q rs) (ht : ∀ x < 2 ^ N, t' x = t x) {s idx : Nat} (hs : s ≤ n) (hidx : idx < 2 ^ (n - s)) :
    ∃ f, subcubePartialHigh w N t' q s idx = .ok f ∧ ∀ v < 2 ^ s, f v = cur .highToLow N t rs (idx * 2 ^ s + v) := by
  obtain ⟨h1, e, h2, h3⟩ := queryOk_spec hq
  unfold subcubePartialHigh partialParams
  rw [h1, if_neg (by omega), if_neg (by rw [show N - rs.length - s = n - s by omega]; omega), h2]
  simp only [ebind_ok]
  refine ⟨_, rfl, fun v hv => ?_⟩
  rw [if_pos hv, listRange_sum, ← highSum_eq t hn h3 (idx * 2 ^ s + v) t' ht]
  · refine Finset.sum_congr rfl fun i _ => ?_
    rw [high_index hv (by rw [show N - rs.length - s = n - s by omega]; exact hidx) (by omega)]
  · calc idx * 2 ^ s + v < idx * 2 ^ s + 2 ^ s := by omega
      _ = (idx + 1) * 2 ^ s := by ring
      _ ≤ 2 ^ (n - s) * 2 ^ s := Nat.mul_le_mul_right _ hidx
      _ = 2 ^ n := by rw [← pow_add]; congr 1; omega

/-! ### Folding a transparent multilinear -/

theorem foldSubcubes_ok {w s n scalars : Nat} {chunk : Nat → Except Error (Nat → F)} {g : Nat → F} {sv : F} (hs : s ≤ n)
    (hsw : s < w → s = n) (hsc : scalars ≤ 2 ^ n)
    (hchunk : ∀ idx < 2 ^ (n - s), ∃ f, chunk idx = .ok f ∧ ∀ v < 2 ^ s, f v = g (idx * 2 ^ s + v))
    (hsuf : ∀ x, scalars ≤ x → x < 2 ^ n → g x = sv) :
    ∃ evals, foldSubcubes w s scalars chunk = .ok evals ∧ (∃ p, evals.size = p * 2 ^ w ∧ p ≤ 2 ^ (n - w)) ∧
      ∀ x < 2 ^ n, foldedVal evals sv x = g x := by
  have hS := Nat.two_pow_pos s
  have hW := Nat.two_pow_pos w
  have hns : 2 ^ (n - s) * 2 ^ s = 2 ^ n := by rw [← pow_add]; congr 1; omega
  have hcount : divCeil scalars (2 ^ s) ≤ 2 ^ (n - s) := divCeil_le hS (by rw [hns]; exact hsc)
  obtain ⟨cs, hcs, hrel⟩ := collect_exists (List.range (divCeil scalars (2 ^ s))) chunk
    (fun idx f => ∀ v < 2 ^ s, f v = g (idx * 2 ^ s + v))
    (fun idx hidx => hchunk idx (lt_of_lt_of_le (List.mem_range.1 hidx) hcount))
  have hget : ∀ idx < divCeil scalars (2 ^ s), ∃ f, cs[idx]? = some f ∧ ∀ v < 2 ^ s, f v = g (idx * 2 ^ s + v) := by
    intro idx hidx
    have hl := hrel.length_eq
    rw [List.length_range] at hl
    have hlt : idx < cs.length := by omega
    refine ⟨cs[idx], List.getElem?_eq_getElem hlt, ?_⟩
    have := (List.forall₂_iff_get.1 hrel).2 idx (by rw [List.length_range]; exact hidx) hlt
    simpa using this
  unfold foldSubcubes
  simp only [hcs, ebind_ok]
  refine ⟨_, rfl, ⟨min (divCeil scalars (2 ^ s) * 2 ^ (s - w)) (divCeil scalars (2 ^ w)), rfl, ?_⟩, fun x hx => ?_⟩
  · by_cases hw : w ≤ n
    · refine (Nat.min_le_right _ _).trans (divCeil_le hW ?_)
      rw [← pow_add, show n - w + w = n by omega]
      exact hsc
    · have h0 : s = n := hsw (by omega)
      refine (Nat.min_le_left _ _).trans ?_
      rw [show s - w = 0 by omega, pow_zero, Nat.mul_one]
      rw [h0, Nat.sub_self, pow_zero] at hcount
      rw [h0]
      exact hcount.trans (Nat.two_pow_pos _)
  · unfold foldedVal
    dsimp only
    by_cases hw : w ≤ s
    · have hps : 2 ^ (s - w) * 2 ^ w = 2 ^ s := by rw [← pow_add]; congr 1; omega
      rw [hps]
      split
      next hlt =>
        have h1 : x < divCeil scalars (2 ^ s) * 2 ^ s := by
          refine lt_of_lt_of_le hlt ((Nat.mul_le_mul_right _ (Nat.min_le_left _ _)).trans ?_)
          rw [Nat.mul_assoc, hps]
        obtain ⟨f, hf, hfv⟩ := hget (x / 2 ^ s) (Nat.div_lt_of_lt_mul (by rw [Nat.mul_comm]; exact h1))
        rw [hf]
        dsimp only
        rw [hfv _ (Nat.mod_lt _ hS), Nat.mul_comm, Nat.div_add_mod]
      next hlt =>
        refine (hsuf x ?_ hx).symm
        have h1 := (divCeil_bounds scalars (2 ^ s) hS).1
        have h2 := (divCeil_bounds scalars (2 ^ w) hW).1
        rw [Nat.min_def] at hlt
        split at hlt
        · rw [Nat.mul_assoc, hps] at hlt
          omega
        · omega
    · have h0 : s = n := hsw (by omega)
      have e1 : s - w = 0 := by omega
      have hxW : x < 2 ^ w := lt_of_lt_of_le hx (Nat.pow_le_pow_right (by omega) (by omega))
      rw [e1, pow_zero, Nat.mul_one, Nat.one_mul]
      split
      next hlt =>
        have hpos : 0 < divCeil scalars (2 ^ s) := by
          by_contra hc
          have : divCeil scalars (2 ^ s) = 0 := by omega
          rw [this, Nat.zero_min, Nat.zero_mul] at hlt
          omega
        obtain ⟨f, hf, hfv⟩ := hget 0 hpos
        rw [Nat.div_eq_of_lt hxW, hf]
        dsimp only
        rw [Nat.mod_eq_of_lt hxW, hfv x (by rw [h0]; exact hx)]
        simp
      next hlt =>
        refine (hsuf x ?_ hx).symm
        have h1 := (divCeil_bounds scalars (2 ^ s) hS).1
        have h2 := (divCeil_bounds scalars (2 ^ w) hW).1
        rw [Nat.min_def] at hlt
        split at hlt
        · have : divCeil scalars (2 ^ s) = 0 := by
            by_contra hc
            have : 1 * 2 ^ w ≤ divCeil scalars (2 ^ s) * 2 ^ w := Nat.mul_le_mul_right _ (by omega)
            omega
          rw [this] at h1
          omega
        · omega

theorem subcubeVars_le (w bits a b c : Nat) : subcubeVars w bits a b c ≤ c := Nat.min_le_right _ _

theorem subcubeVars_lt (w bits a b c : Nat) (h : subcubeVars w bits a b c < w) : subcubeVars w bits a b c = c := by
  unfold subcubeVars at *
  omega

theorem cur_const_low {N n : Nat} {t : Nat → F} {rs : List F} {sv : F} {sl : Nat} (hn : N = n + rs.length)
    (hsuf : ∀ x, 2 ^ N - sl ≤ x → x < 2 ^ N → t x = sv) (x : Nat) (hx : divCeil (2 ^ N - sl) (2 ^ rs.length) ≤ x)
    (hx' : x < 2 ^ n) : cur .lowToHigh N t rs x = sv := by
  unfold cur
  dsimp only
  rw [← mle_const sv rs]
  refine mle_congr fun i hi => ?_
  have h1 := (divCeil_bounds (2 ^ N - sl) (2 ^ rs.length) (Nat.two_pow_pos _)).1
  have h2 : divCeil (2 ^ N - sl) (2 ^ rs.length) * 2 ^ rs.length ≤ x * 2 ^ rs.length := Nat.mul_le_mul_right _ hx
  have h3 : (x + 1) * 2 ^ rs.length ≤ 2 ^ n * 2 ^ rs.length := Nat.mul_le_mul_right _ hx'
  rw [Nat.add_mul, Nat.one_mul, ← pow_add, ← hn] at h3
  refine hsuf _ ?_ ?_
  · rw [Nat.mul_comm (2 ^ rs.length)]; omega
  · rw [Nat.mul_comm (2 ^ rs.length)]; omega

theorem cur_const_high {N n : Nat} {t : Nat → F} {rs : List F} {sv : F} {sl : Nat} (hn : N = n + rs.length)
    (hsuf : ∀ x, 2 ^ N - sl ≤ x → x < 2 ^ N → t x = sv) (x : Nat) (hx : 2 ^ N - sl ≤ x)
    (hx' : x < 2 ^ n) : cur .highToLow N t rs x = sv := by
  unfold cur
  dsimp only
  rw [← mle_const sv rs.reverse]
  refine mle_congr fun i hi => ?_
  rw [List.length_reverse] at hi
  rw [show N - rs.length = n by omega]
  refine hsuf _ (by omega) ?_
  calc x + 2 ^ n * i < 2 ^ n + 2 ^ n * i := by omega
    _ = 2 ^ n * (i + 1) := by ring
    _ ≤ 2 ^ n * 2 ^ rs.length := Nat.mul_le_mul_left _ hi
    _ = 2 ^ N := by rw [hn, pow_add]

theorem pow_div_mul (n w : Nat) (x : Nat) (hx : x < 2 ^ n) : x < 2 ^ (n - w) * 2 ^ w :=
  lt_of_lt_of_le hx (le_pow_sub_mul w n)

theorem foldLow_transparent (w bits N n : Nat) (t t' : Nat → F) (rs : List F) (r : F) (q : Query F) (so : Nat) (sv : F) (sl : Nat)
    (hn : N = n + 1 + rs.length) (h : Stands w .lowToHigh N (n + 1) t rs (.transparent N t' so (sv, sl)))
    (hq : QueryOk w .lowToHigh q (rs ++ [r])) :
    ∃ m, foldLow w bits (n + 1) r (some q) (.transparent N t' so (sv, sl)) = .ok (m, decide (so ≠ 0)) ∧
      Stands w .lowToHigh N n t (rs ++ [r]) m ∧ m.switchover? = if so = 0 then none else some (so - 1) := by
  obtain ⟨-, ht, hsl, hsuf⟩ := h
  have hn' : N = n + (rs ++ [r]).length := by rw [List.length_append, List.length_singleton]; omega
  have hlen : (rs ++ [r]).length = rs.length + 1 := by simp
  unfold foldLow
  simp only
  by_cases hso : so = 0
  · rw [if_pos hso]
    obtain ⟨h1, e, h2, h3⟩ := queryOk_spec hq
    rw [if_neg (by omega)]
    rw [if_pos hso, show decide (so ≠ 0) = false by simp [hso]]
    by_cases hc : 2 ^ N - sl < 2 ^ (n + 1)
    · rw [if_pos hc, Nat.add_sub_cancel]
      have hsv := subcubeVars_le w bits (log2Ceil (2 ^ N - sl)) q.nVars n
      obtain ⟨ev, g1, g2, g3⟩ := foldSubcubes_ok (w := w) (n := n) (scalars := divCeil (2 ^ N - sl) (2 ^ q.nVars))
        (chunk := subcubePartialLow w N t' q (subcubeVars w bits (log2Ceil (2 ^ N - sl)) q.nVars n))
        (g := cur .lowToHigh N t (rs ++ [r])) (sv := sv) hsv (subcubeVars_lt w bits _ _ _)
        (by rw [h1]
            refine divCeil_le (Nat.two_pow_pos _) ?_
            rw [← pow_add, ← hn']
            omega)
        (fun idx hidx => subcubePartialLow_ok hn' hq ht hsv hidx)
        (fun x hx hx' => cur_const_low hn' hsuf x (by rw [← h1]; exact hx) hx')
      rw [g1]
      exact ⟨_, rfl, ⟨g2, g3⟩, rfl⟩
    · rw [if_neg hc]
      unfold partialLow
      rw [h1, if_neg (by omega), h2]
      refine ⟨_, rfl, ⟨⟨_, rfl, ?_⟩, fun x hx => ?_⟩, rfl⟩
      · rw [show N - (rs ++ [r]).length = n by omega]
      · unfold foldedVal
        dsimp only
        rw [show N - (rs ++ [r]).length = n by omega, if_pos (pow_div_mul n w x hx), if_pos hx, listRange_sum,
          lowSum_eq t hn' h3 x t' ht hx]
  · rw [if_neg hso, if_neg hso, show decide (so ≠ 0) = true by simp [hso]]
    exact ⟨_, rfl, ⟨rfl, ht, hsl, hsuf⟩, rfl⟩

theorem foldHigh_transparent (w bits N n : Nat) (t t' : Nat → F) (rs : List F) (r : F) (q : Query F) (so : Nat) (sv : F)
    (sl : Nat) (hn : N = n + 1 + rs.length) (h : Stands w .highToLow N (n + 1) t rs (.transparent N t' so (sv, sl)))
    (hq : QueryOk w .highToLow q (rs ++ [r])) :
    ∃ m, foldHigh w bits (n + 1) r (some q) (.transparent N t' so (sv, sl)) = .ok (m, decide (so ≠ 0)) ∧
      Stands w .highToLow N n t (rs ++ [r]) m ∧ m.switchover? = if so = 0 then none else some (so - 1) := by
  obtain ⟨-, ht, hsl, hsuf⟩ := h
  have hn' : N = n + (rs ++ [r]).length := by rw [List.length_append, List.length_singleton]; omega
  have hlen : (rs ++ [r]).length = rs.length + 1 := by simp
  unfold foldHigh
  simp only
  by_cases hso : so = 0
  · rw [if_pos hso]
    obtain ⟨h1, e, h2, h3⟩ := queryOk_spec hq
    rw [if_pos hso, show decide (so ≠ 0) = false by simp [hso]]
    by_cases hc : 2 ^ N - sl < 2 ^ (n + 1)
    · rw [if_pos hc, Nat.add_sub_cancel]
      have hsv := subcubeVars_le w bits (log2Ceil (2 ^ N - sl)) q.nVars n
      obtain ⟨ev, g1, g2, g3⟩ := foldSubcubes_ok (w := w) (n := n) (scalars := min (2 ^ N - sl) (2 ^ (N - q.nVars)))
        (chunk := subcubePartialHigh w N t' q (subcubeVars w bits (log2Ceil (2 ^ N - sl)) q.nVars n))
        (g := cur .highToLow N t (rs ++ [r])) (sv := sv) hsv (subcubeVars_lt w bits _ _ _)
        (by rw [h1, show N - (rs ++ [r]).length = n by omega]
            exact Nat.min_le_right _ _)
        (fun idx hidx => subcubePartialHigh_ok hn' hq ht hsv hidx)
        (fun x hx hx' => cur_const_high hn' hsuf x (by
          rw [h1, show N - (rs ++ [r]).length = n by omega] at hx
          omega) hx')
      rw [g1]
      exact ⟨_, rfl, ⟨g2, g3⟩, rfl⟩
    · rw [if_neg hc]
      unfold partialHigh
      rw [h1, if_neg (by omega), h2]
      refine ⟨_, rfl, ⟨⟨_, rfl, ?_⟩, fun x hx => ?_⟩, rfl⟩
      · rw [show N - (rs ++ [r]).length = n by omega]
      · unfold foldedVal
        dsimp only
        rw [show N - (rs ++ [r]).length = n by omega, if_pos (pow_div_mul n w x hx), if_pos hx, listRange_sum,
          ← highSum_eq t hn' h3 x t' ht hx, show N - (rs ++ [r]).length = n by omega]
  · rw [if_neg hso, if_neg hso, show decide (so ≠ 0) = true by simp [hso]]
    exact ⟨_, rfl, ⟨rfl, ht, hsl, hsuf⟩, rfl⟩

end Verif.Sumcheck
