import Verif.Math.ModelFold
import Verif.Math.LemmasTensor

set_option linter.unusedSectionVars false

namespace Verif.Fold

open Verif.Tensor Verif.Mle Finset

variable {F : Type*}

theorem forRange_write {out : Slice F} {m a : Nat} {v : Nat → F} {body : Nat → Slice F → Option (Slice F)}
    (hb : ∀ i < m, ∀ o, o.size = out.size → body i o = o.set? (a + i) (v i)) (hsz : a + m ≤ out.size) :
    ∃ o', forRange m body out = some o' ∧ o'.size = out.size ∧
      ∀ x, o'.val x = if a ≤ x ∧ x < a + m then v (x - a) else out.val x := by
  refine forRange_inv (fun i (o : Slice F) => o.size = out.size ∧
    ∀ x, o.val x = if a ≤ x ∧ x < a + i then v (x - a) else out.val x) ⟨rfl, fun x => ?_⟩ ?_
  · rw [if_neg (by omega)]
  · rintro i hi o ⟨hs, hv⟩
    refine ⟨⟨o.size, fun j => if j = a + i then v i else o.val j⟩, ?_, hs, fun x => ?_⟩
    · rw [hb i hi o hs, Slice.set?_of_lt (by omega)]
    · show (if x = a + i then _ else _) = _
      rw [hv]
      by_cases h : x = a + i
      · rw [if_pos h, if_pos (by omega), h, Nat.add_sub_cancel_left]
      · rw [if_neg h]
        by_cases h2 : a ≤ x ∧ x < a + i
        · rw [if_pos h2, if_pos (by omega)]
        · rw [if_neg h2, if_neg (by omega)]

theorem grid_index {W p j x : Nat} (hW : 0 < W) :
    (p * W ≤ x ∧ x < p * W + j) ↔ (x / W = p ∧ x % W < j) ∨ (p * W + W ≤ x ∧ x < p * W + j) := by
  have h1 := Nat.div_add_mod x W
  have h2 := Nat.mod_lt x hW
  constructor
  · intro h
    by_cases h' : x < p * W + W
    · left
      have : x / W = p := by
        rw [Nat.div_eq_iff hW]; omega
      refine ⟨this, ?_⟩
      rw [this, Nat.mul_comm] at h1; omega
    · right; omega
  · rintro (⟨rfl, h⟩ | h)
    · rw [Nat.mul_comm] at h1; omega
    · omega

theorem forRange_grid {out : Slice F} {P m W : Nat} {v : Nat → F}
    {body : Nat → Nat → Slice F → Option (Slice F)} (hW : 0 < W) (hm : m ≤ W)
    (hb : ∀ p < P, ∀ j < m, ∀ o, o.size = out.size → body p j o = o.set? (p * W + j) (v (p * W + j)))
    (hsz : P * W ≤ out.size) :
    ∃ o', forRange P (fun p o => forRange m (body p) o) out = some o' ∧ o'.size = out.size ∧
      ∀ x, o'.val x = if x < P * W ∧ x % W < m then v x else out.val x := by
  refine forRange_inv (fun p (o : Slice F) => o.size = out.size ∧
    ∀ x, o.val x = if x < p * W ∧ x % W < m then v x else out.val x) ⟨rfl, fun x => ?_⟩ ?_
  · rw [if_neg (by omega)]
  · rintro p hp o ⟨hs, hv⟩
    have hpW : p * W + W ≤ P * W := by rw [← Nat.succ_mul]; exact Nat.mul_le_mul_right _ hp
    obtain ⟨o', e, s, v'⟩ := forRange_write (out := o) (m := m) (a := p * W) (body := body p)
      (v := fun j => v (p * W + j)) (fun j hj o' ho' => hb p hp j hj o' (by rw [ho', hs])) (by omega)
    refine ⟨o', e, by rw [s, hs], fun x => ?_⟩
    rw [v', hv]
    have hx1 := Nat.div_add_mod x W
    have hx2 := Nat.mod_lt x hW
    have hidx := grid_index (W := W) (p := p) (j := m) (x := x) hW
    have hsucc : (p + 1) * W = p * W + W := Nat.succ_mul _ _
    by_cases h : p * W ≤ x ∧ x < p * W + m
    · rw [if_pos h]
      have h' := (hidx.1 h).resolve_right (by omega)
      rw [if_pos ⟨by omega, h'.2⟩]
      show v (p * W + (x - p * W)) = _
      rw [Nat.add_sub_cancel' h.1]
    · rw [if_neg h]
      by_cases h2 : x < p * W ∧ x % W < m
      · rw [if_pos h2, if_pos ⟨by omega, h2.2⟩]
      · rw [if_neg h2, if_neg]
        rintro ⟨h3, h4⟩
        apply h2
        refine ⟨?_, h4⟩
        by_contra h5
        apply h
        have : x / W = p := by rw [Nat.div_eq_iff hW]; omega
        exact hidx.2 (.inl ⟨this, h4⟩)

variable [CommRing F]

theorem zeroElem_eq (w p : Nat) (out : Slice F) (h : p * 2 ^ w + 2 ^ w ≤ out.size) :
    ∃ o', zeroElem w p out = some o' ∧ o'.size = out.size ∧
      ∀ x, o'.val x = if p * 2 ^ w ≤ x ∧ x < p * 2 ^ w + 2 ^ w then 0 else out.val x :=
  forRange_write (v := fun _ => 0) (fun _ _ _ _ => rfl) h

/-- As `forRange_grid`, each block being cleared first. -/
theorem forRange_gridZero {out : Slice F} {P m w : Nat} {v : Nat → F}
    {body : Nat → Nat → Slice F → Option (Slice F)} (hm : m ≤ 2 ^ w)
    (hb : ∀ p < P, ∀ j < m, ∀ o, o.size = out.size →
      body p j o = o.set? (p * 2 ^ w + j) (v (p * 2 ^ w + j)))
    (hsz : P * 2 ^ w ≤ out.size) :
    ∃ o', forRange P (fun p o => (zeroElem w p o).bind (forRange m (body p))) out = some o' ∧
      o'.size = out.size ∧
      ∀ x, o'.val x = if x < P * 2 ^ w then (if x % 2 ^ w < m then v x else 0) else out.val x := by
  have hW := Nat.two_pow_pos w
  refine forRange_inv (fun p (o : Slice F) => o.size = out.size ∧
    ∀ x, o.val x = if x < p * 2 ^ w then (if x % 2 ^ w < m then v x else 0) else out.val x)
    ⟨rfl, fun x => ?_⟩ ?_
  · rw [if_neg (by omega)]
  · rintro p hp o ⟨hs, hv⟩
    have hpW : p * 2 ^ w + 2 ^ w ≤ P * 2 ^ w := by
      rw [← Nat.succ_mul]; exact Nat.mul_le_mul_right _ hp
    obtain ⟨o1, e1, s1, v1⟩ := zeroElem_eq w p o (by omega)
    obtain ⟨o', e, s, v'⟩ := forRange_write (out := o1) (m := m) (a := p * 2 ^ w) (body := body p)
      (v := fun j => v (p * 2 ^ w + j)) (fun j hj o' ho' => hb p hp j hj o' (by rw [ho', s1, hs]))
      (by omega)
    refine ⟨o', by rw [e1]; exact e, by rw [s, s1, hs], fun x => ?_⟩
    rw [v', v1, hv]
    have hidx := grid_index (W := 2 ^ w) (p := p) (j := m) (x := x) hW
    have hsucc : (p + 1) * 2 ^ w = p * 2 ^ w + 2 ^ w := Nat.succ_mul _ _
    by_cases h : p * 2 ^ w ≤ x ∧ x < p * 2 ^ w + m
    · rw [if_pos h]
      have h' := (hidx.1 h).resolve_right (by omega)
      rw [if_pos (by omega), if_pos h'.2]
      show v (p * 2 ^ w + (x - p * 2 ^ w)) = _
      rw [Nat.add_sub_cancel' h.1]
    · rw [if_neg h]
      by_cases h2 : x < p * 2 ^ w
      · rw [if_neg (by omega), if_pos h2, if_pos (show x < (p + 1) * 2 ^ w by omega)]
      · by_cases h3 : x < p * 2 ^ w + 2 ^ w
        · rw [if_pos (by omega), if_pos (by omega), if_neg]
          intro h4
          apply h
          have : x / 2 ^ w = p := by rw [Nat.div_eq_iff hW]; omega
          exact hidx.2 (.inl ⟨this, h4⟩)
        · rw [if_neg (by omega), if_neg h2, if_neg (by omega)]

/-- The scalars of an output of `2^d` values packed by `w` are exactly the ones written. -/
theorem grid_covers {w d x : Nat} (hx : x < 2 ^ d) :
    x < 2 ^ (d - w) * 2 ^ w ∧ x % 2 ^ w < min (2 ^ w) (2 ^ d) := by
  have := le_pow_sub_mul w d
  refine ⟨by omega, lt_min (Nat.mod_lt _ (Nat.two_pow_pos w)) ?_⟩
  exact (Nat.mod_le _ _).trans_lt hx

/-- The scalars written are below `2^d`. -/
theorem grid_lt {w d p j : Nat} (hp : p < 2 ^ (d - w)) (hj : j < min (2 ^ w) (2 ^ d)) :
    p * 2 ^ w + j < 2 ^ d := by
  rcases Nat.lt_or_ge d w with h | h
  · rw [Nat.sub_eq_zero_of_le h.le] at hp
    have : p = 0 := by simpa using hp
    subst this
    rw [Nat.zero_mul, Nat.zero_add]; exact lt_of_lt_of_le hj (Nat.min_le_right _ _)
  · have h1 : 2 ^ (d - w) * 2 ^ w = 2 ^ d := by rw [← Nat.pow_add, Nat.sub_add_cancel h]
    have h2 : p * 2 ^ w + 2 ^ w ≤ 2 ^ (d - w) * 2 ^ w := by
      rw [← Nat.succ_mul]; exact Nat.mul_le_mul_right _ hp
    have := lt_of_lt_of_le hj (Nat.min_le_left _ _)
    omega

theorem shl_or {p w j : Nat} (hj : j < 2 ^ w) : (p <<< w) ||| j = p * 2 ^ w + j := by
  rw [Nat.shiftLeft_eq, Nat.mul_comm]
  exact (Nat.two_pow_add_eq_or_of_lt hj p).symm

variable {F' : Type*} [CommRing F']

omit [CommRing F'] in
theorem dot_eq (emb : F' → F) (evals : Slice F') (query : Slice F) (k : Nat) (index : Nat → Nat)
    (hq : 2 ^ k ≤ query.size) (hi : ∀ t < 2 ^ k, index t < evals.size) :
    dot emb evals query k index =
      some (∑ t ∈ range (2 ^ k), query.val t * emb (evals.val (index t))) := by
  unfold dot
  rw [Nat.min_eq_left hq]
  refine sumRange_eq fun t ht => ?_
  rw [Slice.get?_of_lt (by omega), Slice.get?_of_lt (hi t ht)]; rfl

/-- Entry `x` of a right fold. -/
def rightAt (emb : F' → F) (evals : Nat → F') (query : Nat → F) (k x : Nat) : F :=
  ∑ t ∈ range (2 ^ k), query t * emb (evals (x * 2 ^ k + t))

/-- Entry `x` of a left fold, `d` being the number of remaining variables. -/
def leftAt (emb : F' → F) (evals : Nat → F') (query : Nat → F) (k d x : Nat) : F :=
  ∑ t ∈ range (2 ^ k), query t * emb (evals (t * 2 ^ d + x))

/-- Entry `x` of a middle fold. -/
def middleAt (emb : F' → F) (evals : Nat → F') (query : Nat → F) (k s x : Nat) : F :=
  ∑ t ∈ range (2 ^ k), query t * emb (evals (x / 2 ^ s * 2 ^ (s + k) + x % 2 ^ s + t * 2 ^ s))

theorem rightAt_index {n k x t : Nat} (hk : k ≤ n) (hx : x < 2 ^ (n - k)) (ht : t < 2 ^ k) :
    x * 2 ^ k + t < 2 ^ n := by
  have : 2 ^ (n - k) * 2 ^ k = 2 ^ n := by rw [← Nat.pow_add, Nat.sub_add_cancel hk]
  have h2 : x * 2 ^ k + 2 ^ k ≤ 2 ^ (n - k) * 2 ^ k := by
    rw [← Nat.succ_mul]; exact Nat.mul_le_mul_right _ hx
  omega

theorem foldRightFallback_eq (emb : F' → F) (w' : Nat) (evals : Slice F') (n : Nat) (query : Slice F)
    (k : Nat) (out : Slice F) (hk : k ≤ n) (he : 2 ^ n ≤ evals.size) (hq : 2 ^ k ≤ query.size)
    (ho : out.size = 2 ^ (n - k - w') * 2 ^ w') :
    ∃ o', foldRightFallback emb w' evals n query k out = some o' ∧ o'.size = out.size ∧
      ∀ x < 2 ^ (n - k), o'.val x = rightAt emb evals.val query.val k x := by
  have hP : packedLen w' out = 2 ^ (n - k - w') := by
    unfold packedLen; rw [ho, Nat.mul_div_cancel _ (Nat.two_pow_pos w')]
  unfold foldRightFallback
  rw [hP]
  obtain ⟨o', e, s, v⟩ := forRange_grid (out := out) (P := 2 ^ (n - k - w'))
    (m := min (2 ^ w') (2 ^ (n - k))) (W := 2 ^ w') (v := rightAt emb evals.val query.val k)
    (body := fun p j out => (dot emb evals query k fun t => t + ((p <<< w') ||| j) <<< k).bind
      (out.set? ((p <<< w') ||| j))) (Nat.two_pow_pos _) (Nat.min_le_left _ _) (by
    intro p hp j hj o _
    have hj' : j < 2 ^ w' := lt_of_lt_of_le hj (Nat.min_le_left _ _)
    have hx := grid_lt hp hj
    simp only [shl_or hj']
    simp only [Nat.shiftLeft_eq]
    rw [dot_eq emb evals query k _ hq (fun t ht => by
      have := rightAt_index hk hx ht
      show t + (p * 2 ^ w' + j) * 2 ^ k < evals.size
      omega)]
    simp only [Option.bind_some, rightAt]
    congr 1
    exact sum_congr rfl fun t _ => by rw [Nat.add_comm t]) (by omega)
  exact ⟨o', e, s, fun x hx => by rw [v, if_pos (grid_covers hx)]⟩

theorem foldLeftFallback_eq (emb : F' → F) (w' : Nat) (evals : Slice F') (n : Nat) (query : Slice F)
    (k : Nat) (out : Slice F) (hk : k ≤ n) (he : 2 ^ n ≤ evals.size) (hq : 2 ^ k ≤ query.size)
    (ho : out.size = 2 ^ (n - k - w') * 2 ^ w') :
    ∃ o', foldLeftFallback emb w' evals n query k out = some o' ∧ o'.size = out.size ∧
      ∀ x < 2 ^ (n - k), o'.val x = leftAt emb evals.val query.val k (n - k) x := by
  have hP : packedLen w' out = 2 ^ (n - k - w') := by
    unfold packedLen; rw [ho, Nat.mul_div_cancel _ (Nat.two_pow_pos w')]
  have hpow : 2 ^ k * 2 ^ (n - k) = 2 ^ n := by rw [← Nat.pow_add]; congr 1; omega
  unfold foldLeftFallback
  rw [hP]
  obtain ⟨o', e, s, v⟩ := forRange_gridZero (out := out) (P := 2 ^ (n - k - w'))
    (m := min (2 ^ w') (2 ^ (n - k))) (w := w') (v := leftAt emb evals.val query.val k (n - k))
    (body := fun p j out => (dot emb evals query k fun t => t <<< (n - k) ||| p <<< w' ||| j).bind
          (out.set? (p <<< w' ||| j))) (Nat.min_le_left _ _) (by
    intro p hp j hj o _
    have hj' : j < 2 ^ w' := lt_of_lt_of_le hj (Nat.min_le_left _ _)
    have hx := grid_lt hp hj
    have hidx : ∀ t, t <<< (n - k) ||| p <<< w' ||| j = t * 2 ^ (n - k) + (p * 2 ^ w' + j) := fun t => by
      rw [Nat.or_assoc, shl_or hj', shl_or hx]
    simp only [hidx]
    rw [shl_or hj', dot_eq emb evals query k _ hq (fun t ht => by
      have : t * 2 ^ (n - k) + 2 ^ (n - k) ≤ 2 ^ k * 2 ^ (n - k) := by
        rw [← Nat.succ_mul]; exact Nat.mul_le_mul_right _ ht
      omega)]
    rfl) (by omega)
  exact ⟨o', e, s, fun x hx => by
    rw [v, if_pos (grid_covers hx).1, if_pos (grid_covers hx).2]⟩

theorem checkFold_ok (evals : Slice F') (n : Nat) (query : Slice F) (k : Nat) (out : Slice F)
    (hk : k ≤ n) (he : 2 ^ n ≤ evals.size) (hq : 2 ^ k ≤ query.size) (ho : 2 ^ (n - k) ≤ out.size) :
    checkFoldArguments evals n query k out = .ok () := by
  unfold checkFoldArguments
  rw [if_neg (by omega), if_neg (by omega), if_neg (by omega), if_neg (by omega)]

theorem foldMiddle_eq (emb : F' → F) (w' : Nat) (evals : Slice F') (n : Nat) (query : Slice F)
    (k st : Nat) (out : Slice F) (hk : k + st ≤ n) (he : 2 ^ n ≤ evals.size) (hq : 2 ^ k ≤ query.size)
    (ho : out.size = 2 ^ (n - k - w') * 2 ^ w') :
    ∃ o', foldMiddle emb w' evals n query k st out = some (.ok o') ∧ o'.size = out.size ∧
      ∀ x < 2 ^ (n - k), o'.val x = middleAt emb evals.val query.val k st x := by
  have hP : packedLen w' out = 2 ^ (n - k - w') := by
    unfold packedLen; rw [ho, Nat.mul_div_cancel _ (Nat.two_pow_pos w')]
  unfold foldMiddle
  rw [checkFold_ok evals n query k out (by omega) he hq (by rw [ho]; exact le_pow_sub_mul _ _)]
  dsimp only
  rw [if_neg (by omega), hP]
  obtain ⟨o', e, s, v⟩ := forRange_gridZero (out := out) (P := 2 ^ (n - k - w'))
    (m := min (2 ^ w') (2 ^ (n - k))) (w := w') (v := middleAt emb evals.val query.val k st)
    (body := fun p j out =>
      (dot emb evals query k fun t =>
        (((p <<< w' + j) / 2 ^ st) <<< (st + k) ||| (p <<< w' + j) % 2 ^ st) + t <<< st).bind
          (out.set? (p <<< w' + j))) (Nat.min_le_left _ _) (by
    intro p hp j hj o _
    have hx := grid_lt hp hj
    have hlt : (p * 2 ^ w' + j) % 2 ^ st < 2 ^ (st + k) :=
      lt_of_lt_of_le (Nat.mod_lt _ (Nat.two_pow_pos st)) (Nat.pow_le_pow_right (by omega) (by omega))
    simp only [Nat.shiftLeft_eq p w', shl_or hlt, Nat.shiftLeft_eq _ st]
    rw [dot_eq emb evals query k _ hq (fun t ht => by
      refine lt_of_lt_of_le ?_ he
      set X := p * 2 ^ w' + j
      have h1 : X / 2 ^ st < 2 ^ (n - k - st) := by
        rw [Nat.div_lt_iff_lt_mul (Nat.two_pow_pos st), ← Nat.pow_add]
        rwa [show n - k - st + st = n - k by omega]
      have h2 := Nat.mod_lt X (Nat.two_pow_pos st)
      have h3 : X / 2 ^ st * 2 ^ (st + k) + 2 ^ (st + k) ≤ 2 ^ n := by
        rw [← Nat.succ_mul]
        calc _ ≤ 2 ^ (n - k - st) * 2 ^ (st + k) := Nat.mul_le_mul_right _ h1
          _ = 2 ^ n := by rw [← Nat.pow_add]; congr 1; omega
      have h4 : t * 2 ^ st + 2 ^ st ≤ 2 ^ (st + k) := by
        rw [← Nat.succ_mul, Nat.pow_add, Nat.mul_comm (2 ^ st)]
        exact Nat.mul_le_mul_right _ ht
      omega)]
    rfl) (by omega)
  exact ⟨o', by rw [e]; rfl, s, fun x hx => by
    rw [v, if_pos (grid_covers hx).1, if_pos (grid_covers hx).2]⟩

/-! ### Linear interpolation -/

theorem foldRightLerp_eq (emb : F' →+* F) (w' : Nat) (evals : Slice F') (sz : Nat) (r : F) (suffix : F')
    (out : Slice F) (he : sz ≤ evals.size) (ho : sz ≤ out.size * 2) (hw : 2 ^ w' ∣ out.size) :
    ∃ o', foldRightLerp emb w' evals sz r suffix out = some (.ok o') ∧ o'.size = out.size ∧
      ∀ x, o'.val x =
        if x < (sz + 1) / 2 then
          (1 - r) * emb (evals.val (2 * x)) +
            r * emb (if 2 * x + 1 < sz then evals.val (2 * x + 1) else suffix)
        else out.val x := by
  have hW := Nat.two_pow_pos w'
  unfold foldRightLerp checkRightLerp
  rw [if_neg (by omega), if_neg (by omega)]
  dsimp only
  have hlen : (sz / 2 + 2 ^ w' - 1) / 2 ^ w' * 2 ^ w' ≤ out.size := by
    obtain ⟨c, hc⟩ := hw
    have h1 : sz / 2 ≤ c * 2 ^ w' := by
      rw [Nat.mul_comm c, ← hc]; omega
    rw [hc, Nat.mul_comm (2 ^ w') c]
    refine Nat.mul_le_mul_right _ ?_
    rw [Nat.div_le_iff_le_mul_add_pred hW]
    rw [Nat.mul_comm] at h1
    omega
  rw [if_neg (by
    rw [Nat.not_lt]; unfold packedLen; rw [Nat.le_div_iff_mul_le hW]; exact hlen)]
  set len := (sz / 2 + 2 ^ w' - 1) / 2 ^ w' with hlendef
  have hcov : sz / 2 ≤ len * 2 ^ w' := by
    have h := Nat.div_add_mod (sz / 2 + 2 ^ w' - 1) (2 ^ w')
    rw [← hlendef, Nat.mul_comm] at h
    have := Nat.mod_lt (sz / 2 + 2 ^ w' - 1) hW
    omega
  set val := fun x => lerp emb (evals.val (2 * x)) (evals.val (2 * x + 1)) r with hval
  have main := forRange_inv (n := len) (s := out)
    (body := fun i out =>
      forRange (min (2 ^ w') (sz / 2 - i <<< w')) (fun j out =>
        (evals.get? (((i <<< w') ||| j) <<< 1)).bind fun e0 =>
          (evals.get? (((i <<< w') ||| j) <<< 1 ||| 1)).bind fun e1 =>
            out.set? ((i <<< w') ||| j) (lerp emb e0 e1 r)) out)
    (fun i (o : Slice F) => o.size = out.size ∧
      ∀ x, o.val x = if x < min (i * 2 ^ w') (sz / 2) then val x else out.val x)
    ⟨rfl, fun x => by rw [if_neg (by omega)]⟩ (by
      rintro i hi o ⟨hs, hv⟩
      have hiW : i * 2 ^ w' + 2 ^ w' ≤ len * 2 ^ w' := by
        rw [← Nat.succ_mul]; exact Nat.mul_le_mul_right _ hi
      obtain ⟨o', e, s, v'⟩ := forRange_write (out := o) (a := i * 2 ^ w')
        (m := min (2 ^ w') (sz / 2 - i <<< w')) (v := fun j => val (i * 2 ^ w' + j))
        (body := fun j out => (evals.get? (((i <<< w') ||| j) <<< 1)).bind fun e0 =>
          (evals.get? (((i <<< w') ||| j) <<< 1 ||| 1)).bind fun e1 =>
            out.set? ((i <<< w') ||| j) (lerp emb e0 e1 r)) (by
        intro j hj o' _
        have hj' : j < 2 ^ w' := lt_of_lt_of_le hj (Nat.min_le_left _ _)
        rw [Nat.shiftLeft_eq i] at hj
        rw [shl_or hj']
        have hor : (i * 2 ^ w' + j) <<< 1 ||| 1 = 2 * (i * 2 ^ w' + j) + 1 := by
          rw [shl_or (by decide)]; omega
        rw [hor, Nat.shiftLeft_eq, pow_one, Nat.mul_comm _ 2,
          Slice.get?_of_lt (by omega), Slice.get?_of_lt (by omega)]
        rfl) (by omega)
      refine ⟨o', e, by rw [s, hs], fun x => ?_⟩
      rw [v', hv, Nat.succ_mul, Nat.shiftLeft_eq]
      by_cases h : i * 2 ^ w' ≤ x ∧ x < i * 2 ^ w' + min (2 ^ w') (sz / 2 - i * 2 ^ w')
      · rw [if_pos h, if_pos (by omega)]
        show val (i * 2 ^ w' + (x - i * 2 ^ w')) = _
        rw [Nat.add_sub_cancel' h.1]
      · rw [if_neg h]
        by_cases h2 : x < min (i * 2 ^ w') (sz / 2)
        · rw [if_pos h2, if_pos (by omega)]
        · rw [if_neg h2, if_neg (by omega)])
  obtain ⟨o1, e1, s1, v1⟩ := main
  rw [e1, Option.bind_some]
  unfold foldRightLerpTail
  have hlerp : ∀ x, val x = (1 - r) * emb (evals.val (2 * x)) + r * emb (evals.val (2 * x + 1)) := by
    intro x; simp only [hval, lerp, map_sub]; ring
  by_cases hodd : sz % 2 = 1
  · rw [if_pos hodd, Slice.get?_of_lt (by omega), Option.bind_some, Slice.set?_of_lt (by omega)]
    refine ⟨_, rfl, s1, fun x => ?_⟩
    show (if x = sz / 2 then _ else o1.val x) = _
    rw [v1]
    by_cases hx : x = sz / 2
    · rw [if_pos hx, if_pos (by omega), if_neg (by omega), hx, Nat.mul_comm 2]
      simp only [lerp, map_sub]; ring
    · rw [if_neg hx]
      by_cases hx2 : x < sz / 2
      · rw [if_pos (by omega), if_pos (by omega), if_pos (by omega), hlerp]
      · rw [if_neg (by omega), if_neg (by omega)]
  · rw [if_neg hodd]
    refine ⟨_, rfl, s1, fun x => ?_⟩
    rw [v1]
    by_cases hx2 : x < sz / 2
    · rw [if_pos (by omega), if_pos (by omega), if_pos (by omega), hlerp]
    · rw [if_neg (by omega), if_neg (by omega)]

end Verif.Fold
