import Verif.Math.ModelTensor
import Verif.Math.LemmasMle

namespace Verif.Tensor

open Verif.Mle

variable {F : Type*} [CommRing F]

/-- The effect of one coordinate on the first `h` entries. -/
def stepped (v : Nat → F) (prev : Nat) (r : F) (h i : Nat) : F :=
  if i < h then v i - v i * r
  else if prev ≤ i ∧ i < prev + h then v (i - prev) * r
  else v i

theorem body_eq {q : Slice F} {v : Nat → F} {prev h : Nat} {r : F} {a b : Nat} (ha : a = h)
    (hb : b = prev + h) (hh : h < prev) (hsz : 2 * prev ≤ q.size)
    (hv : ∀ i, q.val i = stepped v prev r h i) :
    ∃ q', (do let x ← q.get? a
              let prod := x * r
              let q ← q.set? a (x - prod)
              q.set? b prod) = some q' ∧ q'.size = q.size ∧
      ∀ i, q'.val i = stepped v prev r (h + 1) i := by
  subst ha hb
  have h1 : a < q.size := by omega
  have h2 : prev + a < q.size := by omega
  have hx : q.val a = v a := by
    rw [hv, stepped, if_neg (by omega), if_neg (by omega)]
  refine ⟨⟨q.size, fun j => if j = prev + a then q.val a * r else if j = a then q.val a - q.val a * r
    else q.val j⟩, by simp only [Slice.get?, Slice.set?, h1, h2, if_true, Option.bind_eq_bind,
      Option.bind_some], rfl, ?_⟩
  intro i
  show (if i = prev + a then _ else if i = a then _ else q.val i) = _
  rw [hx, hv]
  unfold stepped
  rcases Nat.lt_trichotomy i a with h | h | h
  · rw [if_neg (by omega), if_neg (by omega), if_pos h, if_pos (by omega)]
  · subst h
    rw [if_neg (by omega), if_pos rfl, if_pos (by omega)]
  · rcases Nat.lt_trichotomy i (prev + a) with h' | h' | h'
    · rw [if_neg (by omega), if_neg (by omega), if_neg (by omega), if_neg (by omega : ¬ i < a + 1)]
      by_cases h3 : prev ≤ i
      · rw [if_pos (by omega), if_pos (by omega)]
      · rw [if_neg (by omega), if_neg (by omega)]
    · rw [if_pos h', if_neg (by omega), if_pos (by omega), h', Nat.add_sub_cancel_left]
    · rw [if_neg (by omega), if_neg (by omega), if_neg (by omega), if_neg (by omega),
        if_neg (by omega : ¬ i < a + 1), if_neg (by omega)]

theorem coordStep_eq (w n : Nat) (r : F) (q : Slice F) (hsz : 2 * 2 ^ n ≤ q.size) :
    ∃ q', coordStep w (2 ^ n) r q = some q' ∧ q'.size = q.size ∧
      ∀ i, q'.val i = stepped q.val (2 ^ n) r (2 ^ n) i := by
  unfold coordStep
  by_cases hw : 2 ^ n < 2 ^ w
  · rw [if_pos hw]
    refine (forRange_inv (fun h (q' : Slice F) => q'.size = q.size ∧
      ∀ i, q'.val i = stepped q.val (2 ^ n) r h i) ⟨rfl, fun i => ?_⟩ ?_)
    · simp [stepped]
    · rintro h hh q' ⟨hs, hv⟩
      have := body_eq (q := q') (v := q.val) (prev := 2 ^ n) (h := h) (r := r) (a := h)
        (b := 2 ^ n ||| h) rfl (Nat.two_pow_add_eq_or_of_lt hh 1 |> fun e => by simpa using e.symm) hh
        (by omega) hv
      obtain ⟨q'', e, s, v⟩ := this
      exact ⟨q'', e, by rw [s, hs], v⟩
  · rw [if_neg hw]
    have hle : w ≤ n := by
      by_contra h
      exact hw (Nat.pow_lt_pow_right (by omega) (by omega))
    have hdiv : 2 ^ n / 2 ^ w = 2 ^ (n - w) := Nat.pow_div hle (by omega)
    have hmul : 2 ^ (n - w) * 2 ^ w = 2 ^ n := by rw [← Nat.pow_add, Nat.sub_add_cancel hle]
    have hpk : 2 * 2 ^ (n - w) ≤ packedLen w q := by
      unfold packedLen
      rw [Nat.le_div_iff_mul_le (Nat.two_pow_pos w), Nat.mul_assoc, hmul]; exact hsz
    simp only [hdiv]
    rw [if_pos (by omega)]
    have main := forRange_inv (n := 2 ^ (n - w))
      (body := fun k q => forRange (2 ^ w) (laneBody w (2 ^ (n - w)) r k) q) (s := q)
      (fun k (q' : Slice F) => q'.size = q.size ∧
      ∀ i, q'.val i = stepped q.val (2 ^ n) r (k * 2 ^ w) i) ⟨rfl, fun i => by simp [stepped]⟩ ?_
    · obtain ⟨q', e, hs, hv⟩ := main
      exact ⟨q', e, hs, by rw [hmul] at hv; exact hv⟩
    · rintro k hk q' ⟨hs, hv⟩
      have hkw : k * 2 ^ w + 2 ^ w ≤ 2 ^ n := by
        rw [← hmul, ← Nat.succ_mul]; exact Nat.mul_le_mul_right _ hk
      have := forRange_inv (n := 2 ^ w) (body := laneBody w (2 ^ (n - w)) r k) (s := q')
        (fun l (q'' : Slice F) => q''.size = q.size ∧
          ∀ i, q''.val i = stepped q.val (2 ^ n) r (k * 2 ^ w + l) i) ⟨hs, by simpa using hv⟩ (by
        rintro l hl q'' ⟨hs', hv'⟩
        obtain ⟨q3, e, s, v⟩ := body_eq (q := q'') (v := q.val) (prev := 2 ^ n) (h := k * 2 ^ w + l)
          (r := r) (a := k * 2 ^ w + l) (b := (2 ^ (n - w) + k) * 2 ^ w + l) rfl
          (by rw [Nat.add_mul, hmul]; omega) (by omega) (by omega) hv'
        exact ⟨q3, e, by rw [s, hs'], v⟩)
      obtain ⟨q'', e, hs', hv'⟩ := this
      exact ⟨q'', e, hs', by rw [Nat.succ_mul]; exact hv'⟩

theorem coordLoop_eq (w : Nat) (rs : List F) (n : Nat) (q : Slice F)
    (hsz : 2 ^ (n + rs.length) ≤ q.size) :
    ∃ q', coordLoop w n rs q = some q' ∧ q'.size = q.size ∧
      (∀ i < 2 ^ n, ∀ j < 2 ^ rs.length, q'.val (i + 2 ^ n * j) = q.val i * eqWeight rs j) ∧
      ∀ i, 2 ^ (n + rs.length) ≤ i → q'.val i = q.val i := by
  induction rs generalizing n q with
  | nil =>
    refine ⟨q, rfl, rfl, fun i _ j hj => ?_, fun _ _ => rfl⟩
    have : j = 0 := by simpa using hj
    subst this; simp
  | cons r rs ih =>
    rw [List.length_cons] at hsz ⊢
    have hp : 2 ^ (n + 1 + rs.length) = 2 ^ (n + (rs.length + 1)) := by congr 1; omega
    have h2 : 2 * 2 ^ n ≤ 2 ^ (n + (rs.length + 1)) := by
      rw [← Nat.pow_succ']; exact Nat.pow_le_pow_right (by omega) (by omega)
    obtain ⟨q1, e1, s1, v1⟩ := coordStep_eq w n r q (by omega)
    obtain ⟨q2, e2, s2, v2, u2⟩ := ih (n + 1) q1 (by rw [hp, s1]; exact hsz)
    refine ⟨q2, by rw [coordLoop, e1]; exact e2, by rw [s2, s1], fun i hi j hj => ?_, fun i hi => ?_⟩
    · have hj2 : j / 2 < 2 ^ rs.length := by rw [Nat.pow_succ] at hj; omega
      have key : i + 2 ^ n * j = (i + 2 ^ n * (j % 2)) + 2 ^ (n + 1) * (j / 2) := by
        conv_lhs => rw [← Nat.mod_add_div j 2]
        rw [Nat.pow_succ]; ring
      rw [eqWeight_cons]
      rcases Nat.mod_two_eq_zero_or_one j with h | h
      · rw [key, h, Nat.mul_zero, Nat.add_zero,
          v2 i (by rw [Nat.pow_succ]; omega) (j / 2) hj2, v1, stepped, if_pos hi, if_neg (by decide)]
        ring
      · rw [key, h, Nat.mul_one, v2 (i + 2 ^ n) (by rw [Nat.pow_succ]; omega) (j / 2) hj2, v1, stepped,
          if_neg (by omega), if_pos (by omega), if_pos rfl, Nat.add_sub_cancel]
        ring
    · rw [u2 i (by rw [hp]; exact hi), v1, stepped, if_neg (by omega), if_neg (by omega)]

omit [CommRing F] in
theorem packedLen_mul (w k : Nat) (v : Nat → F) : packedLen w ⟨k * 2 ^ w, v⟩ = k :=
  Nat.mul_div_cancel _ (Nat.two_pow_pos w)

theorem max_pow_div (w n : Nat) : max 1 (2 ^ n / 2 ^ w) = 2 ^ (n - w) := by
  rcases Nat.lt_or_ge n w with h | h
  · rw [Nat.div_eq_of_lt (Nat.pow_lt_pow_right (by omega) h), Nat.sub_eq_zero_of_le h.le]; rfl
  · rw [Nat.pow_div h (by omega)]; exact max_eq_right (Nat.two_pow_pos _)

theorem le_pow_sub_mul (w n : Nat) : 2 ^ n ≤ 2 ^ (n - w) * 2 ^ w := by
  rw [← Nat.pow_add]; exact Nat.pow_le_pow_right (by omega) (by omega)

theorem tensorProdEqInd_eq (w logN : Nat) (rs : List F) (v : Nat → F) :
    ∃ q', tensorProdEqInd w logN ⟨2 ^ (logN + rs.length - w) * 2 ^ w, v⟩ rs = some (.ok q') ∧
      q'.size = 2 ^ (logN + rs.length - w) * 2 ^ w ∧
      (∀ i < 2 ^ logN, ∀ j < 2 ^ rs.length, q'.val (i + 2 ^ logN * j) = v i * eqWeight rs j) ∧
      ∀ i, 2 ^ (logN + rs.length) ≤ i → q'.val i = v i := by
  unfold tensorProdEqInd
  rw [if_neg (by rw [packedLen_mul, max_pow_div]; simp)]
  obtain ⟨q', e, s, v', u⟩ := coordLoop_eq w rs logN ⟨2 ^ (logN + rs.length - w) * 2 ^ w, v⟩
    (le_pow_sub_mul _ _)
  exact ⟨q', by rw [e]; rfl, s, v', u⟩

theorem eqIndPartialEval_eq (w : Nat) (point : List F) :
    ∃ b, eqIndPartialEval w point = some b ∧ b.size = 2 ^ (point.length - w) * 2 ^ w ∧
      (∀ j < 2 ^ point.length, b.val j = eqWeight point j) ∧
      ∀ j, 2 ^ point.length ≤ j → b.val j = 0 := by
  have hpos : 0 < 2 ^ (point.length - w) * 2 ^ w := Nat.mul_pos (Nat.two_pow_pos _) (Nat.two_pow_pos _)
  obtain ⟨q', e, s, v', u⟩ := tensorProdEqInd_eq w 0 point (fun j => if j = 0 then (1 : F) else 0)
  rw [Nat.zero_add] at e s u
  refine ⟨q', ?_, s, fun j hj => ?_, fun j hj => ?_⟩
  · simp only [eqIndPartialEval, unitBuffer, Slice.set?, hpos, if_true, Option.bind_eq_bind,
      Option.bind_some]
    rw [e]; rfl
  · have := v' 0 (by simp) j hj
    simpa using this
  · rw [u j hj, if_neg (by have := Nat.two_pow_pos point.length; omega)]

theorem sum_chunks (B N k : Nat) (f : Nat → F) :
    ∑ c ∈ Finset.range k, ∑ t ∈ Finset.range (min B (N - B * c)), f (B * c + t) =
      ∑ i ∈ Finset.range (min N (B * k)), f i := by
  induction k with
  | zero => simp
  | succ k ih =>
    rw [Finset.sum_range_succ, ih]
    rcases Nat.lt_or_ge N (B * k) with h | h
    · rw [show N - B * k = 0 by omega, Nat.min_zero, Finset.sum_range_zero, add_zero,
        min_eq_left (by omega), min_eq_left (by rw [Nat.mul_succ]; omega)]
    · rw [min_eq_right h, show min N (B * (k + 1)) = B * k + min B (N - B * k) by
        rw [Nat.mul_succ]; omega, Finset.sum_range_add]

variable {F' : Type*}

theorem prodTerm_eq (emb : F' → F) (xs : Slice F) (ys : Slice F') (ox oy i : Nat)
    (hx : ox + i < xs.size) (hy : oy + i < ys.size) :
    prodTerm emb xs ys ox oy i = some (xs.val (ox + i) * emb (ys.val (oy + i))) := by
  simp [prodTerm, Slice.get?, hx, hy]

/-- Equal sizes: the inner product. -/
theorem innerProductPar_eq (emb : F' → F) (wx wy N : Nat) (vx : Nat → F) (vy : Nat → F')
    (hy : 2 ^ wy ∣ N)
    (hc : packedLen wy (⟨N, vy⟩ : Slice F') < 16 * 64 ∨ wx ≤ wy + 6) :
    innerProductPar emb wx wy ⟨N, vx⟩ ⟨N, vy⟩ = some (∑ i ∈ Finset.range N, vx i * emb (vy i)) := by
  obtain ⟨k, rfl⟩ := hy
  have hpk : packedLen wy (⟨2 ^ wy * k, vy⟩ : Slice F') = k :=
    Nat.mul_div_cancel_left _ (Nat.two_pow_pos wy)
  unfold innerProductPar
  rw [if_neg (show ¬ 2 ^ wy * k > 2 ^ wy * k by omega), if_neg (show ¬ 2 ^ wy * k < 2 ^ wy * k by omega)]
  rw [hpk] at hc ⊢
  by_cases h : k < 16 * 64
  · rw [if_pos h]
    rw [Nat.mul_comm k]
    refine sumRange_eq fun i hi => ?_
    rw [prodTerm_eq _ _ _ _ _ _ (by show 0 + i < 2 ^ wy * k; omega) (by show 0 + i < 2 ^ wy * k; omega)]
    simp
  · rw [if_neg h]
    have hxy : wx ≤ wy + 6 := hc.resolve_left h
    have h64 : 64 * 2 ^ wy = 2 ^ (wy + 6 - wx) * 2 ^ wx := by
      rw [← Nat.pow_add, Nat.sub_add_cancel hxy, Nat.pow_add]; ring
    rw [if_neg (by rw [h64, Nat.mul_mod_left]; simp)]
    rw [h64, Nat.mul_div_cancel _ (Nat.two_pow_pos wx)]
    have hinner : ∀ c < (k + 63) / 64,
        (if packedLen wx (⟨2 ^ wy * k, vx⟩ : Slice F) < c * 2 ^ (wy + 6 - wx) then none else
          sumRange (min 64 (k - 64 * c) * 2 ^ wy)
          (prodTerm emb (⟨2 ^ wy * k, vx⟩ : Slice F) ⟨2 ^ wy * k, vy⟩ (c * 2 ^ (wy + 6 - wx) * 2 ^ wx)
            (64 * c * 2 ^ wy))) =
        some (∑ t ∈ Finset.range (min (64 * 2 ^ wy) (2 ^ wy * k - 64 * 2 ^ wy * c)),
          vx (64 * 2 ^ wy * c + t) * emb (vy (64 * 2 ^ wy * c + t))) := by
      intro c hc
      have hc64 : 64 * c ≤ k := by omega
      have h1 : c * 2 ^ (wy + 6 - wx) * 2 ^ wx = 64 * 2 ^ wy * c := by
        rw [Nat.mul_assoc, ← h64]; ring
      have h2 : 64 * c * 2 ^ wy = 64 * 2 ^ wy * c := by ring
      have h3 : 64 * 2 ^ wy * c ≤ 2 ^ wy * k := by
        calc 64 * 2 ^ wy * c = 2 ^ wy * (64 * c) := by ring
          _ ≤ _ := Nat.mul_le_mul_left _ hc64
      have h4 : min 64 (k - 64 * c) * 2 ^ wy = min (64 * 2 ^ wy) (2 ^ wy * k - 64 * 2 ^ wy * c) := by
        rw [← Nat.mul_min_mul_right, Nat.sub_mul]
        congr 1
        rw [Nat.mul_comm k]; congr 1
      have h5 : ¬ packedLen wx (⟨2 ^ wy * k, vx⟩ : Slice F) < c * 2 ^ (wy + 6 - wx) := by
        rw [Nat.not_lt]
        unfold packedLen
        rw [Nat.le_div_iff_mul_le (Nat.two_pow_pos wx), h1]; exact h3
      rw [if_neg h5, h1, h2, h4]
      refine sumRange_eq fun t ht => ?_
      have : 64 * 2 ^ wy * c + t < 2 ^ wy * k := by omega
      exact prodTerm_eq _ _ _ _ _ _ this this
    rw [sumRange_eq hinner]
    refine congrArg some ((sum_chunks (64 * 2 ^ wy) (2 ^ wy * k) ((k + 63) / 64)
      (fun i => vx i * emb (vy i))).trans ?_)
    rw [min_eq_left]
    calc 2 ^ wy * k ≤ 2 ^ wy * (64 * ((k + 63) / 64)) := Nat.mul_le_mul_left _ (by omega)
      _ = _ := by ring

end Verif.Tensor
