import Verif.Math.LemmasFoldLeft
import Verif.Math.PropsTensor

/-! C18: folds, partial evaluation and zero padding of multilinear tables. -/

set_option linter.unusedSectionVars false

namespace Verif.Fold

open Verif.Tensor Verif.Mle Finset

variable {F F' : Type*} [CommRing F] [CommRing F'] [DecidableEq F]

/-- What the compile-time facts `ty` mean for the types: one-bit scalars embed as `0`/`1`, types iterated
as bytes hold at least a byte, equal packings have equal widths. -/
structure Types.Sound (ty : Types) (emb : F' →+* F) (bit : F' → Bool) (w w' : Nat) : Prop where
  one : ty.oneBit → ∀ x, emb x = if bit x then 1 else 0
  iter : ty.iterBytes → 3 ≤ w
  seq : ty.seqBytes → 3 ≤ w
  same : ty.samePacking → w = w'

/-- The two-entry query that selects the interpolation path. -/
theorem lerp_sum (emb : F' →+* F) (query : Nat → F) (a b : F') (h : query 0 + query 1 = 1) :
    (1 - query 1) * emb a + query 1 * emb b = query 0 * emb a + query 1 * emb b := by
  rw [← h]; ring

/-- C18 (`fold_right`).  For a table of `2^n` values, a query of `2^k ≤ 2^n` values and an output of the
exact length, `fold_right` succeeds on every code path (one-bit tables, interpolation, general) and output
entry `x` is the inner product of the query with the `x`-th block of `2^k` table values. -/
theorem C18_fold_right (emb : F' →+* F) (bit : F' → Bool) (ty : Types) (w w' : Nat)
    (hty : ty.Sound emb bit w w') (n k : Nat) (evals : Slice F') (query out : Slice F) (hk : k ≤ n)
    (he : evals.size = 2 ^ (n - w) * 2 ^ w) (hq : 2 ^ k ≤ query.size)
    (ho : out.size = 2 ^ (n - k - w') * 2 ^ w') :
    ∃ o, foldRight emb bit ty w w' evals n query k out = some (.ok o) ∧ o.size = out.size ∧
      ∀ x < 2 ^ (n - k), o.val x =
        ∑ t ∈ range (2 ^ k), query.val t * emb (evals.val (x * 2 ^ k + t)) := by
  have hes : 2 ^ n ≤ evals.size := by rw [he]; exact le_pow_sub_mul w n
  have hos : 2 ^ (n - k) ≤ out.size := by rw [ho]; exact le_pow_sub_mul w' (n - k)
  unfold foldRight
  rw [checkFold_ok evals n query k out hk hes hq hos]
  dsimp only
  have gen : ∃ o, foldRightGeneral emb w' evals n query k out = some (.ok o) ∧ o.size = out.size ∧
      ∀ x < 2 ^ (n - k), o.val x =
        ∑ t ∈ range (2 ^ k), query.val t * emb (evals.val (x * 2 ^ k + t)) := by
    unfold foldRightGeneral
    by_cases hc : k = 1 ∧ query.val 0 + query.val 1 = 1
    · rw [if_pos hc]
      obtain ⟨rfl, hsum⟩ := hc
      have h2 : 2 ^ n = 2 * 2 ^ (n - 1) := by rw [← Nat.pow_succ']; congr 1; omega
      obtain ⟨o, e, s, v⟩ := foldRightLerp_eq emb w' evals (2 ^ n) (query.val 1) 0 out hes (by omega)
        (by rw [ho]; exact Dvd.intro_left _ rfl)
      refine ⟨o, e, s, fun x hx => ?_⟩
      rw [v, if_pos (by omega), if_pos (by omega), lerp_sum emb query.val _ _ hsum]
      simp only [pow_one, sum_range_succ, range_zero, sum_empty, zero_add]
      rw [Nat.mul_comm 2 x]
      rfl
    · rw [if_neg hc]
      obtain ⟨o, e, s, v⟩ := foldRightFallback_eq emb w' evals n query k out hk hes hq ho
      exact ⟨o, by rw [e]; rfl, s, v⟩
  by_cases h1 : ty.oneBit
  · rw [if_pos h1]
    unfold foldRight1bit
    by_cases hs : n < w ∨ ¬ ty.iterBytes
    · rw [if_pos hs]; exact gen
    · rw [if_neg hs]
      rw [not_or, not_not] at hs
      have hw3 := hty.iter hs.2
      have hen : evals.size = 2 ^ n := by rw [he, ← Nat.pow_add]; congr 1; omega
      by_cases hk3 : k < 3
      · rw [if_pos hk3]
        by_cases hww : w + k ≤ w'
        · obtain ⟨o, e, s, v⟩ := foldRight1bitSmall_eq emb bit (hty.one h1) w w' k evals n query out hk3
            hk (by omega) hww hen hq hos
          rw [e]
          exact ⟨o, rfl, s, v⟩
        · unfold foldRight1bitSmall
          rw [if_pos (by omega)]
          exact gen
      · rw [if_neg hk3]
        by_cases hk7 : k ≤ 7
        · rw [if_pos hk7]
          obtain ⟨o, e, s, v⟩ := foldRight1bitMedium_eq emb bit (hty.one h1) k evals n query out
            (by omega) hk hen hos
          rw [e]
          exact ⟨o, rfl, s, v⟩
        · rw [if_neg hk7]; exact gen
  · rw [if_neg h1]; exact gen

/-- C18 (`fold_left`).  As `C18_fold_right`; output entry `x` is the inner product of the query with the
table values at distance `2^(n-k)` starting at `x`. -/
theorem C18_fold_left (emb : F' →+* F) (bit : F' → Bool) (ty : Types) (w w' : Nat)
    (hty : ty.Sound emb bit w w') (n k : Nat) (evals : Slice F') (query out : Slice F) (hk : k ≤ n)
    (he : evals.size = 2 ^ (n - w) * 2 ^ w) (hq : 2 ^ k ≤ query.size)
    (ho : out.size = 2 ^ (n - k - w') * 2 ^ w') :
    ∃ o, foldLeft emb bit ty w w' evals n query k out = some (.ok o) ∧ o.size = out.size ∧
      ∀ x < 2 ^ (n - k), o.val x =
        ∑ t ∈ range (2 ^ k), query.val t * emb (evals.val (t * 2 ^ (n - k) + x)) := by
  have hes : 2 ^ n ≤ evals.size := by rw [he]; exact le_pow_sub_mul w n
  have hos : 2 ^ (n - k) ≤ out.size := by rw [ho]; exact le_pow_sub_mul w' (n - k)
  unfold foldLeft
  rw [checkFold_ok evals n query k out hk hes hq hos]
  dsimp only
  have gen : ∃ o, foldLeftGeneral emb ty w' evals n query k out = some (.ok o) ∧ o.size = out.size ∧
      ∀ x < 2 ^ (n - k), o.val x =
        ∑ t ∈ range (2 ^ k), query.val t * emb (evals.val (t * 2 ^ (n - k) + x)) := by
    unfold foldLeftGeneral
    by_cases hc : k = 1 ∧ query.val 0 + query.val 1 = 1 ∧ ty.samePacking
    · rw [if_pos hc]
      obtain ⟨rfl, hsum, hsame⟩ := hc
      have hww := hty.same hsame
      subst hww
      have h2 : 2 ^ n = 2 * 2 ^ (n - 1) := by rw [← Nat.pow_succ']; congr 1; omega
      obtain ⟨o, e, s, v⟩ := foldLeftLerp_eq w ⟨evals.size, fun i => emb (evals.val i)⟩ (2 ^ n) 0 n
        (query.val 1) out hk le_rfl (Nat.two_pow_pos n) hes (by
          show _ ∣ evals.size
          rw [he]; exact Dvd.intro_left _ rfl) (fun i h1 h2 => by omega) ho
      refine ⟨o, e, s, fun x hx => ?_⟩
      rw [v x hx, if_pos (Or.inr (by
        have := (divCeil_spec (2 ^ n) (2 ^ w) (Nat.two_pow_pos w)).1
        omega))]
      unfold padded
      rw [if_pos (by omega), if_pos (by omega)]
      dsimp only
      rw [lerp_sum emb query.val _ _ hsum]
      simp only [pow_one, sum_range_succ, range_zero, sum_empty, zero_add, Nat.zero_mul, Nat.one_mul]
      rw [Nat.add_comm x]
    · rw [if_neg hc]
      obtain ⟨o, e, s, v⟩ := foldLeftFallback_eq emb w' evals n query k out hk hes hq ho
      exact ⟨o, by rw [e]; rfl, s, v⟩
  by_cases h1 : ty.oneBit
  · rw [if_pos h1]
    unfold foldLeft1b
    by_cases hs : n < w ∨ ¬ ty.seqBytes
    · rw [if_pos hs]; exact gen
    · rw [if_neg hs]
      rw [not_or, not_not] at hs
      by_cases hk3 : n - k < 3
      · rw [if_pos hk3]; exact gen
      · rw [if_neg hk3]
        by_cases hw3 : w' > 3
        · rw [if_pos hw3]; exact gen
        · rw [if_neg hw3]
          by_cases ho128 : ty.opt128
          · rw [if_pos ho128]
            have hen : evals.size = 2 ^ n := by rw [he, ← Nat.pow_add]; congr 1; omega
            obtain ⟨o, e, s, v⟩ := foldLeft1b128b_eq emb bit (hty.one h1) w' evals n query k out
              (by omega) (by omega) hen hq (by rw [ho, ← Nat.pow_add]; congr 1; omega)
            rw [e]
            exact ⟨o, rfl, s, v⟩
          · rw [if_neg ho128]; exact gen
  · rw [if_neg h1]; exact gen

/-- C18 (`fold_middle`).  Output entry `i + 2^start * j` is the inner product of the query with the table
values at `i + 2^start * (t + 2^k * j)`. -/
theorem C18_fold_middle (emb : F' → F) (w' : Nat) (n k start : Nat) (evals : Slice F')
    (query out : Slice F) (hk : k + start ≤ n) (he : 2 ^ n ≤ evals.size) (hq : 2 ^ k ≤ query.size)
    (ho : out.size = 2 ^ (n - k - w') * 2 ^ w') :
    ∃ o, foldMiddle emb w' evals n query k start out = some (.ok o) ∧ o.size = out.size ∧
      ∀ i < 2 ^ start, ∀ j < 2 ^ (n - k - start), o.val (i + 2 ^ start * j) =
        ∑ t ∈ range (2 ^ k), query.val t * emb (evals.val (i + 2 ^ start * (t + 2 ^ k * j))) := by
  obtain ⟨o, e, s, v⟩ := foldMiddle_eq emb w' evals n query k start out hk he hq ho
  refine ⟨o, e, s, fun i hi j hj => ?_⟩
  have hlt : i + 2 ^ start * j < 2 ^ (n - k) := by
    have h1 : 2 ^ start * j + 2 ^ start ≤ 2 ^ start * 2 ^ (n - k - start) := by
      rw [← Nat.mul_succ]; exact Nat.mul_le_mul_left _ hj
    have h2 : 2 ^ start * 2 ^ (n - k - start) = 2 ^ (n - k) := by
      rw [← Nat.pow_add]; congr 1; omega
    omega
  rw [v _ hlt]
  unfold middleAt
  refine sum_congr rfl fun t _ => ?_
  rw [Nat.add_mul_div_left _ _ (Nat.two_pow_pos _), Nat.div_eq_of_lt hi, Nat.zero_add,
    Nat.add_mul_mod_self_left, Nat.mod_eq_of_lt hi]
  congr 3
  rw [Nat.pow_add]
  ring

/-- C18 (refusals).  A query longer than the table is refused by the three folds, a short table, query or
output too. -/
theorem C18_fold_refuses (emb : F' →+* F) (bit : F' → Bool) (ty : Types) (w w' : Nat)
    (n k start : Nat) (evals : Slice F') (query out : Slice F)
    (h : n < k ∨ evals.size < 2 ^ n ∨ query.size < 2 ^ k ∨ out.size < 2 ^ (n - k)) :
    (∃ e, foldRight emb bit ty w w' evals n query k out = some (.error e)) ∧
    (∃ e, foldLeft emb bit ty w w' evals n query k out = some (.error e)) ∧
    (∃ e, foldMiddle emb w' evals n query k start out = some (.error e)) := by
  have hc : ∃ e, checkFoldArguments evals n query k out = .error e := by
    unfold checkFoldArguments
    split
    · exact ⟨_, rfl⟩
    · split
      · exact ⟨_, rfl⟩
      · split
        · exact ⟨_, rfl⟩
        · split
          · exact ⟨_, rfl⟩
          · omega
  obtain ⟨e, he⟩ := hc
  unfold foldRight foldLeft foldMiddle
  rw [he]
  exact ⟨⟨e, rfl⟩, ⟨e, rfl⟩, ⟨e, rfl⟩⟩

/-- C18 (`fold_right_lerp`).  Entry `x` interpolates between table entries `2x` and `2x+1`, the missing
last entry of an odd table being `suffix`. -/
theorem C18_fold_right_lerp (emb : F' →+* F) (w' : Nat) (evals : Slice F') (size : Nat) (r : F)
    (suffix : F') (out : Slice F) (he : size ≤ evals.size) (ho : size ≤ out.size * 2)
    (hw : 2 ^ w' ∣ out.size) :
    ∃ o, foldRightLerp emb w' evals size r suffix out = some (.ok o) ∧ o.size = out.size ∧
      (∀ x < (size + 1) / 2, o.val x = mle (fun b => emb
        (if 2 * x + b < size then evals.val (2 * x + b) else suffix)) [r]) ∧
      ∀ x, (size + 1) / 2 ≤ x → o.val x = out.val x := by
  obtain ⟨o, e, s, v⟩ := foldRightLerp_eq emb w' evals size r suffix out he ho hw
  refine ⟨o, e, s, fun x hx => ?_, fun x hx => ?_⟩
  · rw [v, if_pos hx, mle_singleton, if_pos (show 2 * x + 0 < size by omega)]
    rfl
  · rw [v, if_neg (by omega)]

/-- C18 (`fold_left_lerp`, part).  For a table of `p` values continued by `suffix` up to `2^n`, entry `x`
interpolates between table entries `x` and `x + 2^(n-1)` *provided* `suffix` is zero or `x` is within the
packed elements that hold the first `p` values (or all fits one packed element).  Missing: for a non-zero
suffix the remaining entries should be `suffix`; they are not, see `C18_fold_left_lerp_suffix_lost`. -/
theorem C18_fold_left_lerp_partial (w : Nat) (evals : Slice F) (p : Nat) (suffix : F) (n : Nat) (r : F)
    (out : Slice F) (hn : 1 ≤ n) (hp : p ≤ 2 ^ n) (hp0 : 0 < p) (he : p ≤ evals.size)
    (hew : 2 ^ w ∣ evals.size)
    (hsuf : ∀ i, p ≤ i → i < evals.size ∧ i < 2 ^ n → evals.val i = suffix)
    (ho : out.size = 2 ^ (n - 1 - w) * 2 ^ w) :
    ∃ o, foldLeftLerp w evals p suffix n r out = some (.ok o) ∧ o.size = out.size ∧
      ∀ x < 2 ^ (n - 1), suffix = 0 ∨ n ≤ w ∨ x / 2 ^ w < (p + 2 ^ w - 1) / 2 ^ w → o.val x =
        mle (fun b => if x + 2 ^ (n - 1) * b < p then evals.val (x + 2 ^ (n - 1) * b) else suffix) [r] := by
  obtain ⟨o, e, s, v⟩ := foldLeftLerp_eq w evals p suffix n r out hn hp hp0 he hew hsuf ho
  refine ⟨o, e, s, fun x hx hcase => ?_⟩
  rw [v x hx, mle_singleton, Nat.mul_zero, Nat.mul_one, Nat.add_zero]
  by_cases hc : n ≤ w ∨ x < divCeil p (2 ^ w) * 2 ^ w
  · rw [if_pos hc]; rfl
  · rw [if_neg hc]
    rw [not_or] at hc
    have hsp := divCeil_spec p (2 ^ w) (Nat.two_pow_pos w)
    have h0 : suffix = 0 := by
      rcases hcase with h | h | h
      · exact h
      · omega
      · rw [Nat.div_lt_iff_lt_mul (Nat.two_pow_pos w)] at h
        exact absurd h hc.2
    rw [if_neg (by omega), if_neg (by omega), h0]
    ring

/-- Finding: `fold_left_lerp` documents "non-zero `evals` prefix followed by `suffix_eval`", but output entries
past the prefix are zero and not `suffix`. -/
theorem C18_fold_left_lerp_suffix_lost :
    ∃ o, foldLeftLerp 0 (⟨1, fun _ => 5⟩ : Slice Int) 1 7 2 3 ⟨2, fun _ => 0⟩ = some (.ok o) ∧
      o.val 1 = 0 ∧
      mle (fun b => if 1 + 2 ^ (2 - 1) * b < 1 then (5 : Int) else 7) [3] = 7 := by
  obtain ⟨o, e, s, v⟩ := foldLeftLerp_eq 0 (⟨1, fun _ => 5⟩ : Slice Int) 1 7 2 3 ⟨2, fun _ => 0⟩
    (by decide) (by decide) (by decide) (by decide) (by decide) (fun i h1 h2 => by
      have : i < 1 := h2.1
      omega) rfl
  exact ⟨o, e, v 1 (by decide), by decide⟩

/-- C18 (`fold_left_lerp_inplace`).  The truncated table has the interpolated entries. -/
theorem C18_fold_left_lerp_inplace (w : Nat) (evals : Slice F) (p : Nat) (suffix : F) (n : Nat) (r : F)
    (hn : 1 ≤ n) (hp : p ≤ 2 ^ n) (hp0 : 0 < p) (he : p ≤ evals.size) (hew : 2 ^ w ∣ evals.size)
    (hsuf : ∀ i, p ≤ i → i < evals.size ∧ i < 2 ^ n → evals.val i = suffix) :
    ∃ o, foldLeftLerpInplace w evals p suffix n r = some (.ok o) ∧
      min p (2 ^ (n - 1)) ≤ o.size ∧
      ∀ x < 2 ^ (n - 1), x < o.size → o.val x =
        mle (fun b => if x + 2 ^ (n - 1) * b < p then evals.val (x + 2 ^ (n - 1) * b) else suffix) [r] := by
  obtain ⟨o, e, s1, s2, v⟩ := foldLeftLerpInplace_eq w evals p suffix n r hn hp hp0 he hew hsuf
  refine ⟨o, e, ?_, fun x hx hx2 => ?_⟩
  · have := (divCeil_spec p (2 ^ w) (Nat.two_pow_pos w)).1
    by_cases h : w < n
    · rw [s1 h]; omega
    · rw [s2 (by omega)]; omega
  · rw [v x hx hx2, mle_singleton, Nat.mul_zero, Nat.mul_one, Nat.add_zero]
    rfl

theorem mlx_new_ok (w d : Nat) (o : Slice F) (h : o.size = 2 ^ (d - w) * 2 ^ w) :
    Mlx.new w d o = .ok ⟨d, o⟩ := by
  have hp : packedLen w o = 2 ^ (d - w) := by
    unfold packedLen; rw [h, Nat.mul_div_cancel _ (Nat.two_pow_pos w)]
  unfold Mlx.new
  rw [hp, if_neg (by rw [not_not]; exact ⟨_, rfl⟩)]
  split
  · rw [if_neg]
    rw [not_not, Nat.sub_eq_zero_of_le (by omega)]; rfl
  · rw [if_neg]
    rw [not_not, Nat.log2_two_pow]; omega

theorem represents_expansion {w : Nat} {q : Query F} {point : List F} (hq : Represents w q point) :
    q.nVars = point.length ∧ ∃ e, q.expansion w = some e ∧ 2 ^ point.length ≤ e.size ∧
      ∀ b < 2 ^ point.length, e.val b = eqWeight point b := by
  obtain ⟨hn, e, he, hv⟩ := hq
  refine ⟨hn, e, he, ?_, hv⟩
  unfold Query.expansion at he
  split at he
  · cases he
    rw [← hn]; exact le_pow_sub_mul _ _
  · cases he

theorem low_mle (emb : F' → F) (evals : Nat → F') (query out : Nat → F) (point rest : List F)
    (hq : ∀ b < 2 ^ point.length, query b = eqWeight point b)
    (ho : ∀ x < 2 ^ rest.length, out x =
      ∑ t ∈ range (2 ^ point.length), query t * emb (evals (x * 2 ^ point.length + t))) :
    mle out rest = mle (fun b => emb (evals b)) (point ++ rest) := by
  rw [mle_append]
  refine mle_congr fun x hx => ?_
  rw [ho x hx, mle_eq_sum]
  refine sum_congr rfl fun t ht => ?_
  rw [hq t (mem_range.1 ht), Nat.add_comm, Nat.mul_comm x]

/-- C18 (`evaluate_partial_low`).  Fixing the low coordinates of a multilinear extension to `point` gives
the table of the multilinear polynomial in the remaining coordinates. -/
theorem C18_evaluate_partial_low (emb : F' →+* F) (bit : F' → Bool) (ty : Types) (w w' : Nat)
    (hty : ty.Sound emb bit w w') (n : Nat) (v : Slice F') (hv : v.size = 2 ^ (n - w) * 2 ^ w)
    (q : Query F) (point : List F) (hq : Represents w' q point) :
    (point.length ≤ n → ∃ m, evaluatePartialLow emb bit ty w w' ⟨n, v⟩ q = some (.ok m) ∧
      m.mu = n - point.length ∧ m.evals.size = 2 ^ (m.mu - w') * 2 ^ w' ∧
      ∀ rest : List F, rest.length = n - point.length →
        mle m.evals.val rest = mle (fun b => emb (v.val b)) (point ++ rest)) ∧
    (n < point.length → evaluatePartialLow emb bit ty w w' ⟨n, v⟩ q = some (.error .incorrectQuerySize)) := by
  obtain ⟨hn, e, he, hsz, hev⟩ := represents_expansion hq
  unfold evaluatePartialLow
  constructor
  · intro hk
    rw [if_neg (show ¬ n < q.nVars by omega), he, hn]
    obtain ⟨o, h1, h2, h3⟩ := C18_fold_right emb bit ty w w' hty n point.length v e
      ⟨2 ^ (n - point.length - w') * 2 ^ w', fun _ => 0⟩ hk hv hsz rfl
    refine ⟨⟨n - point.length, o⟩, ?_, rfl, h2, fun rest hr => ?_⟩
    · rw [Option.bind_some]
      show (foldRight emb bit ty w w' v n e point.length
        ⟨2 ^ (n - point.length - w') * 2 ^ w', fun _ => 0⟩).bind _ = _
      rw [h1]
      show some (Mlx.new w' (n - point.length) o) = _
      rw [mlx_new_ok _ _ _ h2]
    · exact low_mle emb v.val e.val o.val point rest hev (fun x hx => h3 x (by rwa [hr] at hx))
  · intro hk
    rw [if_pos (show n < q.nVars by omega)]

theorem high_mle (emb : F' → F) (evals : Nat → F') (query out : Nat → F) (point rest : List F)
    (hq : ∀ b < 2 ^ point.length, query b = eqWeight point b)
    (ho : ∀ x < 2 ^ rest.length, out x =
      ∑ t ∈ range (2 ^ point.length), query t * emb (evals (t * 2 ^ rest.length + x))) :
    mle out rest = mle (fun b => emb (evals b)) (rest ++ point) := by
  have h1 : mle out rest = mle (fun x => ∑ t ∈ range (2 ^ point.length),
      query t * emb (evals (t * 2 ^ rest.length + x))) rest := mle_congr ho
  rw [mle_append, h1, mle_sum, mle_eq_sum]
  refine sum_congr rfl fun t ht => ?_
  rw [mle_smul, hq t (mem_range.1 ht)]
  congr 2
  funext x
  rw [Nat.add_comm, Nat.mul_comm]

/-- C18 (`evaluate_partial_high`).  Fixing the high coordinates. -/
theorem C18_evaluate_partial_high (emb : F' →+* F) (bit : F' → Bool) (ty : Types) (w w' : Nat)
    (hty : ty.Sound emb bit w w') (junk : Nat → F) (n : Nat) (v : Slice F')
    (hv : v.size = 2 ^ (n - w) * 2 ^ w) (q : Query F) (point : List F) (hq : Represents w' q point) :
    (point.length ≤ n → ∃ m, evaluatePartialHigh emb bit ty w w' junk ⟨n, v⟩ q = some (.ok m) ∧
      m.mu = n - point.length ∧ m.evals.size = 2 ^ (m.mu - w') * 2 ^ w' ∧
      ∀ rest : List F, rest.length = n - point.length →
        mle m.evals.val rest = mle (fun b => emb (v.val b)) (rest ++ point)) ∧
    (n < point.length → ∃ err, evaluatePartialHigh emb bit ty w w' junk ⟨n, v⟩ q = some (.error err)) := by
  obtain ⟨hn, e, he, hsz, hev⟩ := represents_expansion hq
  unfold evaluatePartialHigh
  constructor
  · intro hk
    obtain ⟨o, h1, h2, h3⟩ := C18_fold_left emb bit ty w w' hty n point.length v e
      ⟨2 ^ (n - point.length - w') * 2 ^ w', junk⟩ hk hv hsz rfl
    refine ⟨⟨n - point.length, o⟩, ?_, rfl, h2, fun rest hr => ?_⟩
    · rw [he, hn, Option.bind_some]
      show (foldLeft emb bit ty w w' v n e point.length
        ⟨2 ^ (n - point.length - w') * 2 ^ w', junk⟩).bind _ = _
      rw [h1]
      show some (Mlx.new w' (n - point.length) o) = _
      rw [mlx_new_ok _ _ _ h2]
    · rw [← hr] at h3
      exact high_mle emb v.val e.val o.val point rest hev h3
  · intro hk
    obtain ⟨err, h⟩ := (C18_fold_refuses emb bit ty w w' n point.length 0 v e
      ⟨2 ^ (n - point.length - w') * 2 ^ w', junk⟩ (Or.inl hk)).2.1
    refine ⟨err, ?_⟩
    rw [he, hn, Option.bind_some]
    show (foldLeft emb bit ty w w' v n e point.length
        ⟨2 ^ (n - point.length - w') * 2 ^ w', junk⟩).bind _ = _
    rw [h]
    rfl

theorem middle_mle (emb : F' → F) (evals : Nat → F') (query out : Nat → F) (point lo hi : List F)
    (hq : ∀ b < 2 ^ point.length, query b = eqWeight point b)
    (ho : ∀ i < 2 ^ lo.length, ∀ j < 2 ^ hi.length, out (i + 2 ^ lo.length * j) =
      ∑ t ∈ range (2 ^ point.length),
        query t * emb (evals (i + 2 ^ lo.length * (t + 2 ^ point.length * j)))) :
    mle out (lo ++ hi) = mle (fun b => emb (evals b)) (lo ++ point ++ hi) := by
  rw [mle_append, List.append_assoc, mle_append, mle_append]
  refine mle_congr fun j hj => ?_
  have h1 : mle (fun i => out (i + 2 ^ lo.length * j)) lo = mle (fun i => ∑ t ∈ range (2 ^ point.length),
        query t * emb (evals (i + 2 ^ lo.length * (t + 2 ^ point.length * j)))) lo :=
    mle_congr fun i hi => ho i hi j hj
  rw [h1, mle_sum, mle_eq_sum]
  refine sum_congr rfl fun t ht => ?_
  rw [mle_smul, hq t (mem_range.1 ht)]

/-- C18 (`evaluate_partial`).  Fixing the coordinates `start .. start + point.length` of a multilinear
extension to `point` gives the table of the multilinear polynomial in the remaining coordinates; ranges
that do not fit are refused. -/
theorem C18_evaluate_partial (emb : F' →+* F) (bit : F' → Bool) (ty : Types) (w w' : Nat)
    (hty : ty.Sound emb bit w w') (junk : Nat → F) (n start : Nat) (v : Slice F')
    (hv : v.size = 2 ^ (n - w) * 2 ^ w) (q : Query F) (point : List F) (hq : Represents w' q point) :
    (start + point.length ≤ n → ∃ m, evaluatePartial emb bit ty w w' junk ⟨n, v⟩ q start = some (.ok m) ∧
      m.mu = n - point.length ∧ m.evals.size = 2 ^ (m.mu - w') * 2 ^ w' ∧
      ∀ lo hi : List F, lo.length = start → lo.length + hi.length = n - point.length →
        mle m.evals.val (lo ++ hi) = mle (fun b => emb (v.val b)) (lo ++ point ++ hi)) ∧
    (n < start + point.length →
      evaluatePartial emb bit ty w w' junk ⟨n, v⟩ q start = some (.error .incorrectStartIndex)) := by
  obtain ⟨hn, e, he, hsz, hev⟩ := represents_expansion hq
  unfold evaluatePartial
  constructor
  · intro hk
    rw [if_neg (show ¬ start + q.nVars > n by omega)]
    by_cases h0 : start = 0
    · rw [if_pos h0]
      obtain ⟨m, h1, h2, h3, h4⟩ := (C18_evaluate_partial_low emb bit ty w w' hty n v hv q point hq).1
        (by omega)
      refine ⟨m, h1, h2, h3, fun lo hi hlo hlen => ?_⟩
      have : lo = [] := List.length_eq_zero_iff.1 (by omega)
      subst this
      rw [List.nil_append, List.nil_append]
      exact h4 hi (by simpa using hlen)
    · rw [if_neg h0]
      by_cases hend : start + q.nVars = n
      · rw [if_pos (show start + q.nVars = n from hend)]
        obtain ⟨m, h1, h2, h3, h4⟩ :=
          (C18_evaluate_partial_high emb bit ty w w' hty junk n v hv q point hq).1 (by omega)
        refine ⟨m, h1, h2, h3, fun lo hi hlo hlen => ?_⟩
        have : hi = [] := List.length_eq_zero_iff.1 (by omega)
        subst this
        rw [List.append_nil, List.append_nil]
        exact h4 lo (by omega)
      · rw [if_neg (show ¬ start + q.nVars = n from hend), if_neg (show ¬ n < q.nVars by omega)]
        obtain ⟨o, h1, h2, h3⟩ := C18_fold_middle emb w' n point.length start v e
          ⟨2 ^ (n - point.length - w') * 2 ^ w', junk⟩ (by omega)
          (by rw [hv]; exact le_pow_sub_mul _ _) hsz rfl
        refine ⟨⟨n - point.length, o⟩, ?_, rfl, h2, fun lo hi hlo hlen => ?_⟩
        · rw [he, hn, Option.bind_some]
          show (foldMiddle emb w' v n e point.length start
            ⟨2 ^ (n - point.length - w') * 2 ^ w', junk⟩).bind _ = _
          rw [h1]
          show some (Mlx.new w' (n - point.length) o) = _
          rw [mlx_new_ok _ _ _ h2]
        · refine middle_mle emb v.val e.val o.val point lo hi hev fun i hi' j hj => ?_
          rw [hlo] at hi' ⊢
          exact h3 i hi' j (by
            have : hi.length = n - point.length - start := by omega
            rwa [this] at hj)
  · intro hk
    rw [if_pos (show start + q.nVars > n by omega)]

/-- A type selection without any special path. -/
def plain : Types := ⟨false, false, false, false, false⟩

example : ∃ q m, Query.expand 1 [(2 : Int)] = some q ∧
    evaluatePartial (RingHom.id Int) (fun _ => false) plain 1 1 (fun _ => 9) ⟨3, ⟨8, fun i => (i : Int)⟩⟩ q 1
      = some (.ok m) ∧ mle m.evals.val [5, 7] = mle (fun i => (i : Int)) [5, 2, 7] := by
  obtain ⟨q, e, h1, hn, h2, _, h3⟩ := C17_expand 1 [(2 : Int)]
  obtain ⟨m, hm, _, _, h⟩ := (C18_evaluate_partial (RingHom.id Int) (fun _ => false) plain 1 1
    ⟨by simp [plain], by simp [plain], by simp [plain], by simp [plain]⟩ (fun _ => 9) 3 1
    ⟨8, fun i => (i : Int)⟩ rfl q [2] ⟨hn, e, h2, h3⟩).1 (by decide)
  exact ⟨q, m, h1, hm, h [5] [7] rfl rfl⟩

/-- The one-bit medium path (`k = 3`) with a table over `ZMod 2`. -/
example : ∃ o, foldRight (RingHom.id (ZMod 2)) (fun x => decide (x = 1)) ⟨true, true, true, false, true⟩ 3 0
    ⟨16, fun i => if i % 3 = 0 then 1 else 0⟩ 4 ⟨8, fun _ => 1⟩ 3 ⟨2, fun _ => 0⟩ = some (.ok o) ∧
    o.val 1 = 1 := by
  obtain ⟨o, h, _, hv⟩ := C18_fold_right (RingHom.id (ZMod 2)) (fun x => decide (x = 1))
    ⟨true, true, true, false, true⟩ 3 0
    ⟨fun _ => by decide, fun _ => by decide, fun _ => by decide, by simp⟩ 4 3
    ⟨16, fun i => if i % 3 = 0 then 1 else 0⟩ ⟨8, fun _ => 1⟩ ⟨2, fun _ => 0⟩ (by decide) rfl
    (by decide) rfl
  exact ⟨o, h, (hv 1 (by decide)).trans (by decide)⟩

/-- The one-bit left path. -/
example : ∃ o, foldLeft (RingHom.id (ZMod 2)) (fun x => decide (x = 1)) ⟨true, true, true, false, true⟩ 3 0
    ⟨16, fun i => if i % 3 = 0 then 1 else 0⟩ 4 ⟨2, fun _ => 1⟩ 1 ⟨8, fun _ => 0⟩ = some (.ok o) ∧
    o.val 1 = 1 := by
  obtain ⟨o, h, _, hv⟩ := C18_fold_left (RingHom.id (ZMod 2)) (fun x => decide (x = 1))
    ⟨true, true, true, false, true⟩ 3 0
    ⟨fun _ => by decide, fun _ => by decide, fun _ => by decide, by simp⟩ 4 1
    ⟨16, fun i => if i % 3 = 0 then 1 else 0⟩ ⟨2, fun _ => 1⟩ ⟨8, fun _ => 0⟩ (by decide) rfl
    (by decide) rfl
  exact ⟨o, h, (hv 1 (by decide)).trans (by decide)⟩

example : ∃ o, foldRightLerp (RingHom.id Int) 0 ⟨3, fun i => (i : Int)⟩ 3 5 9 ⟨2, fun _ => 0⟩ = some (.ok o) ∧
    o.val 1 = 37 := by
  obtain ⟨o, h, _, hv, _⟩ := C18_fold_right_lerp (RingHom.id Int) 0 ⟨3, fun i => (i : Int)⟩ 3 5 9
    ⟨2, fun _ => 0⟩ (by decide) (by decide) (by decide)
  exact ⟨o, h, (hv 1 (by decide)).trans (by decide)⟩

example : ∃ o, foldLeftLerp 0 (⟨3, fun i => (i : Int)⟩) 3 9 2 5 ⟨2, fun _ => 0⟩ = some (.ok o) ∧
    o.val 1 = 41 := by
  obtain ⟨o, h, _, hv⟩ := C18_fold_left_lerp_partial 0 (⟨3, fun i => (i : Int)⟩) 3 9 2 5 ⟨2, fun _ => 0⟩
    (by decide) (by decide) (by decide) (by decide) (by decide)
    (fun i h1 h2 => by have : i < 3 := h2.1; omega) rfl
  exact ⟨o, h, (hv 1 (by decide) (Or.inr (Or.inr (by decide)))).trans (by decide)⟩

example : ∃ o, foldLeftLerpInplace 0 (⟨3, fun i => (i : Int)⟩) 3 9 2 5 = some (.ok o) ∧
    2 ≤ o.size ∧ o.val 1 = 41 := by
  obtain ⟨o, h, hs, hv⟩ := C18_fold_left_lerp_inplace 0 (⟨3, fun i => (i : Int)⟩) 3 9 2 5
    (by decide) (by decide) (by decide) (by decide) (by decide)
    (fun i h1 h2 => by have : i < 3 := h2.1; omega)
  have hs' : 2 ≤ o.size := hs
  exact ⟨o, h, hs', (hv 1 (by decide) (by omega)).trans (by decide)⟩

/-! ### Zero padding -/

/-- C18 (`zero_pad`, part).  Padding inserts `nPad` coordinates at `start`; the padded polynomial is the
original one times the Lagrange polynomial of vertex `nonzero` in the new coordinates.  Proved when the
table fills at least one packed output element; missing: smaller tables, where the property is false,
see `C18_zero_pad_loses_values`. -/
theorem C18_zero_pad_partial (emb : F' →+* F) (w w' n nPad start nonzero : Nat) (v : Slice F')
    (hv : v.size = 2 ^ (n - w) * 2 ^ w) (hw : w' ≤ n) :
    (start ≤ n → nonzero < 2 ^ nPad → ∃ m, mlxZeroPad emb w' ⟨n, v⟩ nPad start nonzero = some (.ok m) ∧
      m.mu = n + nPad ∧
      ∀ lo pad hi : List F, lo.length = start → pad.length = nPad → lo.length + hi.length = n →
        mle m.evals.val (lo ++ pad ++ hi) =
          eqWeight pad nonzero * mle (fun b => emb (v.val b)) (lo ++ hi)) ∧
    (n < start ∨ 2 ^ nPad ≤ nonzero →
      ∃ err, mlxZeroPad emb w' ⟨n, v⟩ nPad start nonzero = some (.error err)) := by
  unfold mlxZeroPad
  constructor
  · intro hst hnz
    rw [if_neg (show ¬ start > n by omega), if_neg (show ¬ nonzero ≥ 2 ^ nPad by omega)]
    obtain ⟨o, h1, h2, h3⟩ := zeroPad_eq emb w' v n nPad start nonzero hst hnz
      (by rw [hv]; exact le_pow_sub_mul _ _) hw
    refine ⟨⟨n + nPad, o⟩, ?_, rfl, fun lo pad hi hlo hpad hlen => ?_⟩
    · show (zeroPad emb w' v n (n + nPad) start nonzero
        ⟨2 ^ (n + nPad - w') * 2 ^ w', fun _ => 0⟩).bind _ = _
      rw [h1]
      show some (Mlx.new w' (n + nPad) o) = _
      rw [mlx_new_ok _ _ _ h2]
    · show mle o.val _ = _
      rw [List.append_assoc, mle_append, mle_append, mle_append, ← mle_smul]
      refine mle_congr fun j hj => ?_
      have hent : ∀ c < 2 ^ pad.length, mle (fun i => o.val (i + 2 ^ lo.length * (c + 2 ^ pad.length * j))) lo =
          if c = nonzero then mle (fun i => emb (v.val (i + 2 ^ lo.length * j))) lo else 0 := by
        intro c hc
        have hent' : ∀ i < 2 ^ lo.length, o.val (i + 2 ^ lo.length * (c + 2 ^ pad.length * j)) =
            if c = nonzero then emb (v.val (i + 2 ^ lo.length * j)) else 0 := by
          intro i hi'
          have hpos := Nat.two_pow_pos lo.length
          have hlt : i + 2 ^ lo.length * (c + 2 ^ pad.length * j) < 2 ^ (n + nPad) := by
            have a1 : c + 2 ^ pad.length * j + 1 ≤ 2 ^ pad.length * 2 ^ hi.length := by
              have : 2 ^ pad.length * j + 2 ^ pad.length ≤ 2 ^ pad.length * 2 ^ hi.length := by
                rw [← Nat.mul_succ]; exact Nat.mul_le_mul_left _ hj
              omega
            have a2 := Nat.mul_le_mul_left (2 ^ lo.length) a1
            have a3 : 2 ^ lo.length * (2 ^ pad.length * 2 ^ hi.length) = 2 ^ (n + nPad) := by
              rw [← Nat.pow_add, ← Nat.pow_add]; congr 1; omega
            rw [Nat.mul_succ] at a2
            omega
          rw [h3 _ hlt]
          unfold padAt
          rw [← hlo, ← hpad, Nat.pow_add, ← Nat.div_div_eq_div_mul, Nat.add_mul_div_left _ _ hpos,
            Nat.div_eq_of_lt hi', Nat.zero_add, Nat.add_mul_mod_self_left, Nat.mod_eq_of_lt hc,
            Nat.add_mul_div_left _ _ (Nat.two_pow_pos _), Nat.div_eq_of_lt hc, Nat.zero_add,
            Nat.add_mul_mod_self_left, Nat.mod_eq_of_lt hi', Nat.add_comm (j * _), Nat.mul_comm j]
        by_cases hcn : c = nonzero
        · rw [if_pos hcn]
          exact mle_congr fun i hi' => by rw [hent' i hi', if_pos hcn]
        · rw [if_neg hcn, ← mle_zero lo]
          exact mle_congr fun i hi' => by rw [hent' i hi', if_neg hcn]
      rw [mle_congr hent, mle_eq_sum]
      simp only [mul_ite, mul_zero]
      rw [sum_ite_eq' (range (2 ^ pad.length)) nonzero, if_pos (mem_range.2 (by rw [hpad]; exact hnz))]
  · intro h
    by_cases h1 : start > n
    · exact ⟨_, if_pos h1⟩
    · rw [if_neg (show ¬ start > n from h1), if_pos (show nonzero ≥ 2 ^ nPad by omega)]
      exact ⟨_, rfl⟩

example : ∃ m, mlxZeroPad (RingHom.id Int) 1 ⟨2, ⟨4, fun i => (i : Int) + 1⟩⟩ 1 1 1 = some (.ok m) ∧
    mle m.evals.val [5, 3, 7] = 3 * mle (fun i => (i : Int) + 1) [5, 7] := by
  obtain ⟨m, h, _, hv⟩ := (C18_zero_pad_partial (RingHom.id Int) 1 1 2 1 1 1
    ⟨4, fun i => (i : Int) + 1⟩ rfl (by decide)).1 (by decide) (by decide)
  exact ⟨m, h, (hv [5] [3] [7] rfl rfl rfl).trans (by decide)⟩

/-- Finding: padding a table of two ones over a packing of four lanes to four values, with the table in the
upper half, gives the all-zero table: the loop over the lanes of an output element stops at the length of
the *input* table. -/
theorem C18_zero_pad_loses_values :
    ∃ m, mlxZeroPad (RingHom.id Int) 2 ⟨1, ⟨4, fun _ => 1⟩⟩ 1 1 1 = some (.ok m) ∧
      (∀ i, m.evals.val i = 0) ∧
      eqWeight [(1 : Int)] 1 * mle (fun _ => (1 : Int)) [0] = 1 := by
  refine ⟨⟨2, ⟨4, fun _ => 0⟩⟩, rfl, fun _ => rfl, by decide⟩

/-- Finding: the free function `zero_pad` accepts `nonzero_index = 2^pad` (its check is `>` where `≥` is
meant) and returns a table without any of the values. -/
theorem C18_zero_pad_index_unchecked :
    ∃ o, zeroPad (RingHom.id Int) 0 ⟨2, fun _ => 1⟩ 1 2 1 2 ⟨4, fun _ => 0⟩ = some (.ok o) ∧
      ∀ i, o.val i = 0 :=
  ⟨⟨4, fun _ => 0⟩, rfl, fun _ => rfl⟩

/-- Finding: the documentation of `fold_right` only asks for *at least* `2^n` table values, but the one-bit
path walks over the whole table: with a longer table it writes past the output (undefined behaviour in
the code, which uses unchecked writes). -/
theorem C18_fold_right_onebit_out_of_bounds :
    foldRight (RingHom.id (ZMod 2)) (fun x => decide (x = 1)) ⟨true, true, true, false, true⟩ 3 0
      ⟨16, fun _ => 1⟩ 3 ⟨8, fun _ => 1⟩ 3 ⟨1, fun _ => 0⟩ = none ∧
    checkFoldArguments (⟨16, fun _ => 1⟩ : Slice (ZMod 2)) 3 (⟨8, fun _ => 1⟩ : Slice (ZMod 2)) 3
      ⟨1, fun _ => 0⟩ = .ok () := by
  have hc : checkFoldArguments (⟨16, fun _ => 1⟩ : Slice (ZMod 2)) 3 (⟨8, fun _ => 1⟩ : Slice (ZMod 2)) 3
      ⟨1, fun _ => 0⟩ = .ok () := rfl
  refine ⟨?_, hc⟩
  unfold foldRight
  rw [hc]
  show Option.map Except.ok (foldRight1bitMedium (fun x : ZMod 2 => decide (x = 1)) 3
    ⟨16, fun _ => 1⟩ ⟨8, fun _ => 1⟩ ⟨1, fun _ => 0⟩) = none
  obtain ⟨t, ht, hs, -⟩ := partialSumsTables_eq (⟨2 ^ 3, fun _ => 1⟩ : Slice (ZMod 2)) rfl
  unfold foldRight1bitMedium
  rw [ht, Option.bind_some]
  have hb : ∀ b, byteAt (fun x : ZMod 2 => decide (x = 1)) (⟨16, fun _ => 1⟩ : Slice (ZMod 2)) b < 256 :=
    fun b => byteAt_lt _ _ b
  have hs' : t.size = 256 := hs
  show Option.map _ (Option.map _ (forRange 2 _ _)) = none
  simp only [forRange, Option.bind_some, medStep, Nat.zero_shiftLeft, Nat.zero_add]
  rw [Slice.get?_of_lt (by rw [hs']; exact hb 0)]
  simp only [Option.bind_some, Nat.sub_self, Nat.pow_zero, if_true]
  rw [Slice.set?_of_lt (show 0 < 1 by decide)]
  simp only [Option.bind_some, Nat.zero_shiftLeft, Nat.zero_add]
  rw [Slice.get?_of_lt (by rw [hs']; exact hb 1)]
  simp [Slice.set?]

end Verif.Fold
