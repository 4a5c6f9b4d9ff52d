import Verif.Math.LemmasFoldBits

set_option linter.unusedSectionVars false

namespace Verif.Fold

open Verif.Tensor Verif.Mle Finset

variable {F : Type*}

/-- `f` replaces each entry `x` of `[a, a + m)` by `u x` of its old value, on slices of size `sz`. -/
def UpdOn (sz : Nat) (f : Slice F → Option (Slice F)) (a m : Nat) (u : Nat → F → F) : Prop :=
  ∀ o : Slice F, o.size = sz → ∃ o', f o = some o' ∧ o'.size = sz ∧
    ∀ x, o'.val x = if a ≤ x ∧ x < a + m then u x (o.val x) else o.val x

theorem UpdOn.nest {sz a M P : Nat} {body : Nat → Slice F → Option (Slice F)} {u : Nat → F → F}
    (h : ∀ p < P, UpdOn sz (body p) (a + p * M) M u) : UpdOn sz (forRange P body) a (P * M) u := by
  intro o ho
  have := forRange_inv (n := P) (body := body) (s := o) (fun p (o' : Slice F) => o'.size = sz ∧
    ∀ x, o'.val x = if a ≤ x ∧ x < a + p * M then u x (o.val x) else o.val x)
    ⟨ho, fun x => by rw [if_neg (by omega)]⟩ (by
    rintro p hp o1 ⟨hs, hv⟩
    obtain ⟨o2, e, s, v⟩ := h p hp o1 hs
    refine ⟨o2, e, s, fun x => ?_⟩
    rw [v, hv, Nat.succ_mul]
    by_cases hx : a + p * M ≤ x ∧ x < a + p * M + M
    · rw [if_pos hx, if_neg (by omega), if_pos (by omega)]
    · rw [if_neg hx]
      by_cases h2 : a ≤ x ∧ x < a + p * M
      · rw [if_pos h2, if_pos (by omega)]
      · rw [if_neg h2, if_neg (by omega)])
  exact this

theorem UpdOn.range {sz a P : Nat} {body : Nat → Slice F → Option (Slice F)} {u : Nat → F → F}
    (h : ∀ p < P, UpdOn sz (body p) (a + p) 1 u) : UpdOn sz (forRange P body) a P u := by
  have := UpdOn.nest (M := 1) (P := P) (a := a) (body := body) (u := u) (sz := sz)
    (fun p hp => by rw [Nat.mul_one]; exact h p hp)
  rwa [Nat.mul_one] at this

/-- Writing one entry. -/
theorem UpdOn.one {sz x : Nat} {f : Slice F → Option (Slice F)} {u : Nat → F → F} (hx : x < sz)
    (h : ∀ o : Slice F, o.size = sz → f o = o.set? x (u x (o.val x))) : UpdOn sz f x 1 u := by
  intro o ho
  refine ⟨⟨o.size, fun i => if i = x then u x (o.val x) else o.val i⟩, ?_, ho, fun i => ?_⟩
  · rw [h o ho, Slice.set?_of_lt (by omega)]
  · show (if i = x then _ else _) = _
    by_cases hi : i = x
    · rw [if_pos hi, if_pos (by omega), hi]
    · rw [if_neg hi, if_neg (by omega)]

variable [CommRing F]

/-! ### Left interpolation -/

theorem divCeil_spec (a b : Nat) (hb : 0 < b) : a ≤ divCeil a b * b ∧ divCeil a b * b < a + b := by
  unfold divCeil
  have h := Nat.div_add_mod (a + b - 1) b
  have := Nat.mod_lt (a + b - 1) hb
  rw [Nat.mul_comm] at h
  constructor <;> omega

theorem divCeil_le {a b c : Nat} (hb : 0 < b) (h : a ≤ c * b) : divCeil a b ≤ c := by
  unfold divCeil
  rw [Nat.div_le_iff_le_mul_add_pred hb]
  rw [Nat.mul_comm] at h
  omega

theorem divCeil_mul_le {a b s : Nat} (hb : 0 < b) (hs : b ∣ s) (h : a ≤ s) : divCeil a b * b ≤ s := by
  obtain ⟨c, rfl⟩ := hs
  rw [Nat.mul_comm b c]
  exact Nat.mul_le_mul_right _ (divCeil_le hb (by rw [Nat.mul_comm]; exact h))

/-- The table whose first `p` entries are `v` and the others `suffix`. -/
def padded (v : Nat → F) (p : Nat) (suffix : F) (i : Nat) : F := if i < p then v i else suffix

theorem checkLeftLerp_ok {evals : Slice F} {p n : Nat} {out : Slice F} (hn : 1 ≤ n) (hp : p ≤ 2 ^ n)
    (he : p ≤ evals.size) (ho : min p (2 ^ (n - 1)) ≤ out.size) :
    checkLeftLerp evals p n out = .ok () := by
  unfold checkLeftLerp
  rw [if_neg (by omega), if_neg (by omega), if_neg (by omega), if_neg (by omega)]

/-- `fold_left_lerp` on a table of `p` leading entries and constant `suffix` elsewhere. -/
theorem foldLeftLerp_eq (w : Nat) (evals : Slice F) (p : Nat) (suffix : F) (n : Nat) (r : F)
    (out : Slice F) (hn : 1 ≤ n) (hp : p ≤ 2 ^ n) (hp0 : 0 < p) (he : p ≤ evals.size)
    (hew : 2 ^ w ∣ evals.size) (hsuf : ∀ i, p ≤ i → i < evals.size ∧ i < 2 ^ n → evals.val i = suffix)
    (ho : out.size = 2 ^ (n - 1 - w) * 2 ^ w) :
    ∃ o', foldLeftLerp w evals p suffix n r out = some (.ok o') ∧ o'.size = out.size ∧
      ∀ x < 2 ^ (n - 1), o'.val x =
        if n ≤ w ∨ x < divCeil p (2 ^ w) * 2 ^ w then
          (1 - r) * padded evals.val p suffix x + r * padded evals.val p suffix (x + 2 ^ (n - 1))
        else 0 := by
  have hW := Nat.two_pow_pos w
  have hH := Nat.two_pow_pos (n - 1)
  have h2n : 2 ^ n = 2 * 2 ^ (n - 1) := by rw [← Nat.pow_succ']; congr 1; omega
  have hole := le_pow_sub_mul w (n - 1)
  have hpad : ∀ i, i < evals.size ∧ i < 2 ^ n → padded evals.val p suffix i = evals.val i := fun i hi => by
    unfold padded
    split
    · rfl
    · exact (hsuf i (by omega) hi).symm
  have hpad2 : ∀ i, p ≤ i → padded evals.val p suffix i = suffix := fun i hi => by
    unfold padded; rw [if_neg (by omega)]
  unfold foldLeftLerp
  rw [checkLeftLerp_ok hn hp he (by omega)]
  dsimp only
  by_cases hnw : n > w
  · rw [if_pos hnw]
    have hHW : 2 ^ (n - 1 - w) * 2 ^ w = 2 ^ (n - 1) := by rw [← Nat.pow_add]; congr 1; omega
    have hWH : 2 ^ w ∣ 2 ^ (n - 1) := Nat.pow_dvd_pow 2 (by omega)
    set pivot := divCeil (p - 2 ^ (n - 1)) (2 ^ w) with hpivot
    set PL := 2 ^ (n - 1 - w) with hPL
    set U := divCeil p (2 ^ w) with hU
    have hUspec := divCeil_spec p (2 ^ w) hW
    rw [← hU] at hUspec
    have hPspec := divCeil_spec (p - 2 ^ (n - 1)) (2 ^ w) hW
    rw [← hpivot] at hPspec
    have hPle : pivot ≤ PL := divCeil_le hW (by omega)
    have hPleU : pivot ≤ U := by
      have : pivot * 2 ^ w < (U + 1) * 2 ^ w := by rw [Nat.succ_mul]; omega
      have := Nat.lt_of_mul_lt_mul_right this
      omega
    have hUe : U * 2 ^ w ≤ evals.size := divCeil_mul_le hW hew he
    have hPe : 0 < pivot → 2 ^ (n - 1) + pivot * 2 ^ w ≤ evals.size := by
      intro hpos
      have hple : 2 ^ (n - 1) < p := by
        by_contra h
        have : p - 2 ^ (n - 1) = 0 := by omega
        rw [this] at hpivot
        have h0 := divCeil_le (a := 0) (b := 2 ^ w) (c := 0) hW (by omega)
        omega
      have := divCeil_mul_le (a := p - 2 ^ (n - 1)) (s := evals.size - 2 ^ (n - 1)) hW
        ((Nat.dvd_sub hew hWH)) (by omega)
      rw [← hpivot] at this
      omega
    have hpl : ∀ o : Slice F, o.size = out.size → packedLen w o = PL := fun o h => by
      unfold packedLen; rw [h, ho, Nat.mul_div_cancel _ hW]
    have hmm : min U PL * 2 ^ w = min (U * 2 ^ w) (2 ^ (n - 1)) := by
      rw [← Nat.mul_min_mul_right, hHW]
    -- first part
    have h1 : ∃ o1, (if pivot > 0 then
          if packedLen w evals < PL ∨ packedLen w out < pivot then none
          else lerpPairs evals (PL * 2 ^ w) (pivot * 2 ^ w) r out
        else some out) = some o1 ∧ o1.size = out.size ∧ ∀ x < pivot * 2 ^ w, o1.val x =
          evals.val x + (evals.val (2 ^ (n - 1) + x) - evals.val x) * r := by
      by_cases hpos : pivot > 0
      · have hPe' := hPe hpos
        rw [if_pos hpos, if_neg, hHW]
        · unfold lerpPairs
          obtain ⟨o1, e1, s1, v1⟩ := forRange_write (out := out) (a := 0)
            (m := min (pivot * 2 ^ w) (evals.size - 2 ^ (n - 1)))
            (v := fun x => evals.val x + (evals.val (2 ^ (n - 1) + x) - evals.val x) * r)
            (body := fun i out => (evals.get? i).bind fun e0 =>
              (evals.get? (2 ^ (n - 1) + i)).bind fun e1 => out.set? i (e0 + (e1 - e0) * r)) (by
            intro i hi o _
            rw [Slice.get?_of_lt (by omega), Slice.get?_of_lt (by omega)]
            simp) (by
              have : pivot * 2 ^ w ≤ PL * 2 ^ w := Nat.mul_le_mul_right _ hPle
              omega)
          refine ⟨o1, e1, s1, fun x hx => ?_⟩
          rw [v1, if_pos (by omega)]; rfl
        · rw [hpl out rfl]
          have : PL ≤ packedLen w evals := by
            unfold packedLen; rw [Nat.le_div_iff_mul_le hW]; omega
          omega
      · rw [if_neg hpos]
        refine ⟨out, rfl, rfl, fun x hx => ?_⟩
        have : pivot = 0 := by omega
        rw [this] at hx; omega
    obtain ⟨o1, e1, s1, v1⟩ := h1
    rw [e1, Option.bind_some]
    have hUPL : pivot ≤ min U PL := by omega
    have hpivU : pivot * 2 ^ w ≤ min U PL * 2 ^ w := Nat.mul_le_mul_right _ hUPL
    rw [if_neg (by
      rw [hpl o1 s1]
      have : pivot ≤ packedLen w evals := by
        unfold packedLen
        rw [Nat.le_div_iff_mul_le hW]
        have : pivot * 2 ^ w ≤ U * 2 ^ w := Nat.mul_le_mul_right _ hPleU
        omega
      omega)]
    unfold lerpSuffix
    obtain ⟨o2, e2, s2, v2⟩ := forRange_write (out := o1) (a := pivot * 2 ^ w)
      (m := min (min U PL * 2 ^ w - pivot * 2 ^ w) (evals.size - pivot * 2 ^ w))
      (v := fun i => evals.val (pivot * 2 ^ w + i) + (suffix - evals.val (pivot * 2 ^ w + i)) * r)
      (body := fun i out => (evals.get? (pivot * 2 ^ w + i)).bind fun e =>
        out.set? (pivot * 2 ^ w + i) (e + (suffix - e) * r)) (by
      intro i hi o _
      rw [Slice.get?_of_lt (by omega)]; rfl) (by omega)
    rw [e2, Option.bind_some]
    obtain ⟨o3, e3, s3, v3⟩ := forRange_write (out := o2) (a := min U PL * 2 ^ w)
      (m := o2.size - min U PL * 2 ^ w) (v := fun _ => (0 : F))
      (body := fun i out => out.set? (min U PL * 2 ^ w + i) 0) (fun _ _ _ _ => rfl) (by omega)
    rw [e3]
    refine ⟨o3, rfl, by rw [s3, s2, s1], fun x hx => ?_⟩
    rw [v3, v2]
    by_cases hx1 : x < pivot * 2 ^ w
    · rw [if_neg (by omega), if_neg (by omega), v1 x hx1, if_pos (Or.inr (by omega)),
        hpad x (by omega), Nat.add_comm x, hpad _ (by
          have := hPe (by
            by_contra h
            have : pivot = 0 := by omega
            rw [this] at hx1; omega)
          omega)]
      ring
    · by_cases hx2 : x < U * 2 ^ w
      · rw [if_neg (by omega), if_pos (by omega), if_pos (Or.inr hx2), hpad x (by omega),
          hpad2 _ (by omega), Nat.add_sub_cancel' (by omega)]
        ring
      · rw [if_pos (by omega), if_neg (by omega)]
  · rw [if_neg hnw, if_pos hp0]
    have hWn : 2 ^ n ≤ 2 ^ w := Nat.pow_le_pow_right (by omega) (by omega)
    have hes : 2 ^ w ≤ evals.size := Nat.le_of_dvd (by omega) hew
    have hos : 2 ^ w ≤ out.size := by rw [ho]; exact Nat.le_mul_of_pos_left _ (Nat.two_pow_pos _)
    rw [if_neg (by omega)]
    obtain ⟨o1, e1, s1, v1⟩ := zeroElem_eq w 0 out (by omega)
    rw [e1, Option.bind_some]
    obtain ⟨o2, e2, s2, v2⟩ := forRange_write (out := o1) (a := 0) (m := 2 ^ (n - 1))
      (v := fun i => evals.val i + r * (evals.val (i + 2 ^ (n - 1)) - evals.val i))
      (body := fun i out => (evals.get? i).bind fun e0 =>
        (evals.get? (i ||| 2 ^ (n - 1))).bind fun e1 => out.set? i (e0 + r * (e1 - e0))) (by
      intro i hi o _
      have hor : i ||| 2 ^ (n - 1) = i + 2 ^ (n - 1) := by
        rw [Nat.or_comm, Nat.add_comm]
        simpa using (Nat.two_pow_add_eq_or_of_lt hi 1).symm
      rw [hor, Slice.get?_of_lt (by omega), Slice.get?_of_lt (by omega)]
      simp) (by omega)
    rw [e2]
    refine ⟨o2, rfl, by rw [s2, s1], fun x hx => ?_⟩
    rw [v2, if_pos (by omega), if_pos (Or.inl (by omega)), hpad x (by omega), hpad _ (by omega)]
    simp only [Nat.sub_zero]
    ring

/-- `fold_left_lerp_inplace`: the same values, truncated. -/
theorem foldLeftLerpInplace_eq (w : Nat) (evals : Slice F) (p : Nat) (suffix : F) (n : Nat) (r : F)
    (hn : 1 ≤ n) (hp : p ≤ 2 ^ n) (hp0 : 0 < p) (he : p ≤ evals.size)
    (hew : 2 ^ w ∣ evals.size) (hsuf : ∀ i, p ≤ i → i < evals.size ∧ i < 2 ^ n → evals.val i = suffix) :
    ∃ o', foldLeftLerpInplace w evals p suffix n r = some (.ok o') ∧
      (w < n → o'.size = min (divCeil p (2 ^ w) * 2 ^ w) (2 ^ (n - 1))) ∧
      (n ≤ w → o'.size = evals.size) ∧
      ∀ x < 2 ^ (n - 1), x < o'.size → o'.val x =
        (1 - r) * padded evals.val p suffix x + r * padded evals.val p suffix (x + 2 ^ (n - 1)) := by
  have hW := Nat.two_pow_pos w
  have hH := Nat.two_pow_pos (n - 1)
  have h2n : 2 ^ n = 2 * 2 ^ (n - 1) := by rw [← Nat.pow_succ']; congr 1; omega
  have hpad : ∀ i, i < evals.size ∧ i < 2 ^ n → padded evals.val p suffix i = evals.val i := fun i hi => by
    unfold padded
    split
    · rfl
    · exact (hsuf i (by omega) hi).symm
  have hpad2 : ∀ i, p ≤ i → padded evals.val p suffix i = suffix := fun i hi => by
    unfold padded; rw [if_neg (by omega)]
  unfold foldLeftLerpInplace
  rw [checkLeftLerp_ok hn hp he (by omega)]
  dsimp only
  by_cases hnw : n > w
  · rw [if_pos hnw]
    have hHW : 2 ^ (n - 1 - w) * 2 ^ w = 2 ^ (n - 1) := by rw [← Nat.pow_add]; congr 1; omega
    have hWH : 2 ^ w ∣ 2 ^ (n - 1) := Nat.pow_dvd_pow 2 (by omega)
    set pivot := divCeil (p - 2 ^ (n - 1)) (2 ^ w) with hpivot
    set PL := 2 ^ (n - 1 - w) with hPL
    set U := divCeil p (2 ^ w) with hU
    have hUspec := divCeil_spec p (2 ^ w) hW
    rw [← hU] at hUspec
    have hPspec := divCeil_spec (p - 2 ^ (n - 1)) (2 ^ w) hW
    rw [← hpivot] at hPspec
    have hPle : pivot ≤ PL := divCeil_le hW (by omega)
    have hPleU : pivot ≤ U := by
      have : pivot * 2 ^ w < (U + 1) * 2 ^ w := by rw [Nat.succ_mul]; omega
      have := Nat.lt_of_mul_lt_mul_right this
      omega
    have hUe : U * 2 ^ w ≤ evals.size := divCeil_mul_le hW hew he
    have hpple : 0 < pivot → 2 ^ (n - 1) < p := by
      intro hpos
      by_contra h
      have : p - 2 ^ (n - 1) = 0 := by omega
      rw [this] at hpivot
      have h0 := divCeil_le (a := 0) (b := 2 ^ w) (c := 0) hW (by omega)
      omega
    have hPe : 0 < pivot → 2 ^ (n - 1) + pivot * 2 ^ w ≤ evals.size := by
      intro hpos
      have hple := hpple hpos
      have := divCeil_mul_le (a := p - 2 ^ (n - 1)) (s := evals.size - 2 ^ (n - 1)) hW
        ((Nat.dvd_sub hew hWH)) (by omega)
      rw [← hpivot] at this
      omega
    have hmm : min U PL * 2 ^ w = min (U * 2 ^ w) (2 ^ (n - 1)) := by
      rw [← Nat.mul_min_mul_right, hHW]
    have hpw : pivot * 2 ^ w ≤ 2 ^ (n - 1) := by rw [← hHW]; exact Nat.mul_le_mul_right _ hPle
    have h1 : ∃ o1, (if pivot > 0 then
          if packedLen w evals < PL ∨ PL < pivot then none
          else
            forRange (min (pivot * 2 ^ w) (evals.size - PL * 2 ^ w)) (fun i evals =>
              (evals.get? i).bind fun e0 => (evals.get? (PL * 2 ^ w + i)).bind fun e1 =>
                evals.set? i (e0 + (e1 - e0) * r)) evals
        else some evals) = some o1 ∧ o1.size = evals.size ∧ ∀ x, o1.val x =
          if x < pivot * 2 ^ w then
            evals.val x + (evals.val (2 ^ (n - 1) + x) - evals.val x) * r else evals.val x := by
      by_cases hpos : pivot > 0
      · have hPe' := hPe hpos
        rw [if_pos hpos, if_neg, hHW]
        · have main := forRange_inv (n := min (pivot * 2 ^ w) (evals.size - 2 ^ (n - 1))) (s := evals)
            (body := fun i (evals : Slice F) =>
              (evals.get? i).bind fun e0 => (evals.get? (2 ^ (n - 1) + i)).bind fun e1 =>
                evals.set? i (e0 + (e1 - e0) * r))
            (fun i (o : Slice F) => o.size = evals.size ∧ ∀ x, o.val x =
              if x < i then evals.val x + (evals.val (2 ^ (n - 1) + x) - evals.val x) * r
              else evals.val x) ⟨rfl, fun x => by rw [if_neg (by omega)]⟩ (by
            rintro i hi o ⟨hs, hv⟩
            refine ⟨⟨o.size, fun j => if j = i then
              evals.val i + (evals.val (2 ^ (n - 1) + i) - evals.val i) * r else o.val j⟩, ?_, hs, fun x => ?_⟩
            · rw [Slice.get?_of_lt (by omega), Option.bind_some, Slice.get?_of_lt (by omega),
                Option.bind_some, Slice.set?_of_lt (by omega), hv i, hv (2 ^ (n - 1) + i),
                if_neg (by omega), if_neg (by omega)]
            · show (if x = i then _ else _) = _
              rw [hv]
              by_cases hx : x = i
              · rw [if_pos hx, if_pos (by omega), hx]
              · rw [if_neg hx]
                by_cases hx2 : x < i
                · rw [if_pos hx2, if_pos (by omega)]
                · rw [if_neg hx2, if_neg (by omega)])
          obtain ⟨o1, e1, s1, v1⟩ := main
          refine ⟨o1, e1, s1, fun x => ?_⟩
          rw [v1]
          congr 1
          rw [Nat.min_eq_left (by omega)]
        · have : PL ≤ packedLen w evals := by
            unfold packedLen; rw [Nat.le_div_iff_mul_le hW]; omega
          omega
      · rw [if_neg hpos]
        refine ⟨evals, rfl, rfl, fun x => ?_⟩
        have : pivot = 0 := by omega
        rw [this, if_neg (by omega)]
    obtain ⟨o1, e1, s1, v1⟩ := h1
    rw [e1, Option.bind_some]
    have hUPL : pivot ≤ min U PL := by omega
    have hpivU : pivot * 2 ^ w ≤ min U PL * 2 ^ w := Nat.mul_le_mul_right _ hUPL
    rw [if_neg (by
      have : min U PL ≤ packedLen w o1 := by
        unfold packedLen
        rw [Nat.le_div_iff_mul_le hW, s1]
        omega
      omega)]
    have hupd := UpdOn.range (sz := evals.size) (a := pivot * 2 ^ w) (P := (min U PL - pivot) * 2 ^ w)
      (body := fun i (evals : Slice F) =>
            (evals.get? (pivot * 2 ^ w + i)).bind fun e =>
              evals.set? (pivot * 2 ^ w + i) (e + (suffix - e) * r))
      (u := fun _ e => e + (suffix - e) * r) (by
      intro i hi
      rw [Nat.sub_mul] at hi
      exact UpdOn.one (by omega) fun o ho => by rw [Slice.get?_of_lt (by omega)]; rfl)
    obtain ⟨o2, e2, s2, v2⟩ := hupd o1 s1
    rw [e2]
    refine ⟨_, rfl, fun _ => ?_, fun h => by omega, fun x hx hxs => ?_⟩
    · show min o2.size (min U PL * 2 ^ w) = _
      rw [hmm, s2]; omega
    · have hxs' : x < min o2.size (min U PL * 2 ^ w) := hxs
      rw [hmm] at hxs'
      show o2.val x = _
      rw [v2, v1, Nat.sub_mul]
      by_cases hx1 : x < pivot * 2 ^ w
      · rw [if_neg (by omega), if_pos hx1, hpad x (by omega), Nat.add_comm x, hpad _ (by
          have := hPe (by
            by_contra h
            have : pivot = 0 := by omega
            rw [this] at hx1; omega)
          omega)]
        ring
      · rw [if_pos (by omega), if_neg hx1, hpad x (by omega), hpad2 _ (by omega)]
        ring
  · rw [if_neg hnw, if_pos hp0]
    have hWn : 2 ^ n ≤ 2 ^ w := Nat.pow_le_pow_right (by omega) (by omega)
    have hes : 2 ^ w ≤ evals.size := Nat.le_of_dvd (by omega) hew
    rw [if_neg (by omega)]
    obtain ⟨o1, e1, s1, v1⟩ := zeroElem_eq w 0 evals (by omega)
    rw [e1, Option.bind_some]
    obtain ⟨o2, e2, s2, v2⟩ := forRange_write (out := o1) (a := 0) (m := 2 ^ (n - 1))
      (v := fun i => evals.val i + r * (evals.val (i + 2 ^ (n - 1)) - evals.val i))
      (body := fun i out => (evals.get? i).bind fun e0 =>
        (evals.get? (i ||| 2 ^ (n - 1))).bind fun e1 => out.set? i (e0 + r * (e1 - e0))) (by
      intro i hi o _
      have hor : i ||| 2 ^ (n - 1) = i + 2 ^ (n - 1) := by
        rw [Nat.or_comm, Nat.add_comm]
        simpa using (Nat.two_pow_add_eq_or_of_lt hi 1).symm
      rw [hor, Slice.get?_of_lt (by omega), Slice.get?_of_lt (by omega)]
      simp) (by omega)
    rw [e2]
    refine ⟨o2, rfl, fun h => by omega, fun _ => by rw [s2, s1], fun x hx _ => ?_⟩
    rw [v2, if_pos (by omega), hpad x (by omega), hpad _ (by omega)]
    simp only [Nat.sub_zero]
    ring

/-! ### One-bit left fold -/

variable {F' : Type*} [CommRing F']

theorem foldLeft1b128b_eq (emb : F' → F) (bit : F' → Bool)
    (hbit : ∀ x, emb x = if bit x then 1 else 0) (w' : Nat) (evals : Slice F') (n : Nat)
    (query : Slice F) (k : Nat) (out : Slice F) (hw : w' ≤ 3) (hk : k + 3 ≤ n)
    (he : evals.size = 2 ^ n) (hq : 2 ^ k ≤ query.size) (ho : out.size = 2 ^ (n - k)) :
    ∃ o', foldLeft1b128b bit w' evals n query k out = some o' ∧ o'.size = out.size ∧
      ∀ x < 2 ^ (n - k), o'.val x = leftAt emb evals.val query.val k (n - k) x := by
  have hW := Nat.two_pow_pos w'
  have hitems : 8 / 2 ^ w' * 2 ^ w' = 8 :=
    Nat.div_mul_cancel (by rw [show 8 = 2 ^ 3 by rfl]; exact Nat.pow_dvd_pow 2 hw)
  set R := 2 ^ (n - k - 3) with hR
  have hRpos : 0 < R := Nat.two_pow_pos _
  have hR8 : R * 8 = 2 ^ (n - k) := by
    rw [hR, show 8 = 2 ^ 3 by rfl, ← Nat.pow_add]; congr 1; omega
  have hkR : 2 ^ k * 2 ^ (n - k) = 2 ^ n := by rw [← Nat.pow_add]; congr 1; omega
  have hbytes : evals.size / 8 = 2 ^ k * R := by
    rw [he, ← hkR, ← hR8, ← Nat.mul_assoc, Nat.mul_div_cancel _ (by omega)]
  have hchunks : divCeil (2 ^ k * R) R = 2 ^ k := by
    refine le_antisymm (divCeil_le hRpos le_rfl) ?_
    have := (divCeil_spec (2 ^ k * R) R hRpos).1
    exact Nat.le_of_mul_le_mul_right this hRpos
  unfold foldLeft1b128b
  dsimp only
  rw [hbytes, ← hR, hchunks, Nat.min_eq_right hq]
  obtain ⟨o0, e0, s0, v0⟩ := forRange_write (out := out) (a := 0) (m := out.size) (v := fun _ => (0 : F))
    (body := fun i out => out.set? i 0) (fun i _ o _ => by simp) (by omega)
  rw [e0, Option.bind_some]
  have main := forRange_inv (n := 2 ^ k) (s := o0)
    (body := fun t out =>
      (query.get? t).bind fun q =>
        forRange (min R (2 ^ k * R - t * R)) (fun b out =>
          forRange (8 / 2 ^ w') (fun i out =>
            forRange (2 ^ w') (fun l out =>
              (out.get? ((b * (8 / 2 ^ w') + i) * 2 ^ w' + l)).bind fun o =>
                out.set? ((b * (8 / 2 ^ w') + i) * 2 ^ w' + l) (o + if (byteAt bit evals (t * R + b)).testBit (i * 2 ^ w' + l) then q
                  else 0)) out) out) out)
    (fun t (o : Slice F) => o.size = out.size ∧ ∀ x < 2 ^ (n - k), o.val x =
      ∑ s ∈ range t, query.val s * emb (evals.val (s * 2 ^ (n - k) + x)))
    ⟨s0, fun x hx => by rw [v0, if_pos (by omega), range_zero, sum_empty]⟩ (by
    rintro t ht o ⟨hs, hv⟩
    rw [Slice.get?_of_lt (by omega), Option.bind_some]
    have hmin : min R (2 ^ k * R - t * R) = R := by
      refine Nat.min_eq_left ?_
      have : t * R + R ≤ 2 ^ k * R := by rw [← Nat.succ_mul]; exact Nat.mul_le_mul_right _ ht
      omega
    rw [hmin]
    have hupd : UpdOn out.size (forRange R (fun b out =>
          forRange (8 / 2 ^ w') (fun i out =>
            forRange (2 ^ w') (fun l out =>
              (out.get? ((b * (8 / 2 ^ w') + i) * 2 ^ w' + l)).bind fun o =>
                out.set? ((b * (8 / 2 ^ w') + i) * 2 ^ w' + l) (o + if (byteAt bit evals (t * R + b)).testBit (i * 2 ^ w' + l) then query.val t
                  else 0)) out) out)) 0 (R * 8)
        (fun x y => y + if (byteAt bit evals (t * R + x / 8)).testBit (x % 8) then query.val t else 0) := by
      refine UpdOn.nest fun b hb => ?_
      have hb8 : b * 8 + 8 ≤ R * 8 := by rw [← Nat.succ_mul]; exact Nat.mul_le_mul_right _ hb
      have : UpdOn out.size (forRange (8 / 2 ^ w') (fun i out =>
            forRange (2 ^ w') (fun l out =>
              (out.get? ((b * (8 / 2 ^ w') + i) * 2 ^ w' + l)).bind fun o =>
                out.set? ((b * (8 / 2 ^ w') + i) * 2 ^ w' + l) (o + if (byteAt bit evals (t * R + b)).testBit (i * 2 ^ w' + l) then query.val t
                  else 0)) out)) (0 + b * 8) (8 / 2 ^ w' * 2 ^ w')
        (fun x y => y + if (byteAt bit evals (t * R + x / 8)).testBit (x % 8) then query.val t else 0) := by
        refine UpdOn.nest fun i hi => ?_
        refine UpdOn.range fun l hl => ?_
        have hil : i * 2 ^ w' + l < 8 := by
          have : i * 2 ^ w' + 2 ^ w' ≤ 8 / 2 ^ w' * 2 ^ w' := by
            rw [← Nat.succ_mul]; exact Nat.mul_le_mul_right _ hi
          omega
        have hidx : (b * (8 / 2 ^ w') + i) * 2 ^ w' + l = 0 + b * 8 + i * 2 ^ w' + l := by
          rw [Nat.add_mul, Nat.mul_assoc, hitems]; omega
        have hd : (0 + b * 8 + i * 2 ^ w' + l) / 8 = b := by omega
        have hm : (0 + b * 8 + i * 2 ^ w' + l) % 8 = i * 2 ^ w' + l := by omega
        have hlt : 0 + b * 8 + i * 2 ^ w' + l < out.size := by omega
        refine UpdOn.one hlt fun o ho => ?_
        rw [hidx, Slice.get?_of_lt (by rw [ho]; exact hlt), Option.bind_some, hd, hm]
      rwa [hitems] at this
    obtain ⟨o', e', s', v'⟩ := hupd o hs
    refine ⟨o', e', s', fun x hx => ?_⟩
    rw [v', if_pos (by omega), hv x hx, sum_range_succ, hbit]
    dsimp only
    rw [byteAt_testBit _ _ _ _ (Nat.mod_lt _ (by omega)),
      show 8 * (t * R + x / 8) + x % 8 = t * 2 ^ (n - k) + x by
        rw [← hR8]
        have := Nat.div_add_mod x 8
        have h2 : 8 * (t * R) = t * (R * 8) := by ring
        omega]
    congr 1
    split <;> simp)
  obtain ⟨o', e', s', v'⟩ := main
  exact ⟨o', e', s', v'⟩

/-! ### Zero padding -/

/-- Entry `x` of a zero-padded table. -/
def padAt (emb : F' → F) (evals : Nat → F') (extra start nonzero x : Nat) : F :=
  if x / 2 ^ start % 2 ^ extra = nonzero then
    emb (evals (x / 2 ^ (start + extra) * 2 ^ start + x % 2 ^ start)) else 0

theorem zeroPad_eq (emb : F' → F) (w' : Nat) (evals : Slice F') (n extra start nonzero : Nat)
    (hst : start ≤ n) (hnz : nonzero < 2 ^ extra) (he : 2 ^ n ≤ evals.size) (hw : w' ≤ n) :
    ∃ o', zeroPad emb w' evals n (n + extra) start nonzero
        ⟨2 ^ (n + extra - w') * 2 ^ w', fun _ => 0⟩ = some (.ok o') ∧
      o'.size = 2 ^ (n + extra - w') * 2 ^ w' ∧
      ∀ x < 2 ^ (n + extra), o'.val x = padAt emb evals.val extra start nonzero x := by
  have hW := Nat.two_pow_pos w'
  have hS := Nat.two_pow_pos start
  have hpl : packedLen w' (⟨2 ^ (n + extra - w') * 2 ^ w', fun _ => (0 : F)⟩ : Slice F) =
    2 ^ (n + extra - w') := packedLen_mul _ _ _
  have htot : 2 ^ (n + extra - w') * 2 ^ w' = 2 ^ (n + extra) := by
    rw [← Nat.pow_add]; congr 1; omega
  have hWn : 2 ^ w' ≤ 2 ^ n := Nat.pow_le_pow_right (by omega) hw
  have hpow : 2 ^ (start + extra) = 2 ^ extra * 2 ^ start := by rw [Nat.pow_add, Nat.mul_comm]
  unfold zeroPad
  rw [if_neg (by omega), if_neg (by omega), Nat.add_sub_cancel_left, if_neg (by omega), hpl,
    Nat.min_eq_left hWn]
  have hupd : UpdOn (2 ^ (n + extra - w') * 2 ^ w') (forRange (2 ^ (n + extra - w')) (fun p out =>
      forRange (2 ^ w') (fun j out =>
        zeroPadEntry emb evals extra start nonzero (p <<< w' + j) out) out)) 0
      (2 ^ (n + extra - w') * 2 ^ w') (fun x y =>
        if x / 2 ^ start % 2 ^ extra = nonzero then
          emb (evals.val (x / 2 ^ (start + extra) * 2 ^ start + x % 2 ^ start)) else y) := by
    refine UpdOn.nest fun p hp => UpdOn.range fun j hj => ?_
    have hpj : p * 2 ^ w' + 2 ^ w' ≤ 2 ^ (n + extra - w') * 2 ^ w' := by
      rw [← Nat.succ_mul]; exact Nat.mul_le_mul_right _ hp
    set X := 0 + p * 2 ^ w' + j with hX
    have hXlt : X < 2 ^ (n + extra - w') * 2 ^ w' := by omega
    refine UpdOn.one hXlt fun o ho => ?_
    have hXe : p <<< w' + j = X := by rw [Nat.shiftLeft_eq]; omega
    rw [hXe]
    unfold zeroPadEntry
    dsimp only
    -- the column in blocks of `2^start`
    have hcol : X % 2 ^ (start + extra) = X % 2 ^ start + 2 ^ start * (X / 2 ^ start % 2 ^ extra) := by
      rw [Nat.pow_add]; exact Nat.mod_mul
    have hml := Nat.mod_lt X hS
    set B := X / 2 ^ start % 2 ^ extra with hB
    have hiff : (nonzero * 2 ^ start ≤ X % 2 ^ (start + extra) ∧
        X % 2 ^ (start + extra) < nonzero * 2 ^ start + 2 ^ start) ↔ B = nonzero := by
      rw [hcol, Nat.mul_comm (2 ^ start) B]
      constructor
      · rintro ⟨h1, h2⟩
        have h3 : nonzero * 2 ^ start < (B + 1) * 2 ^ start := by rw [Nat.succ_mul]; omega
        have h4 : B * 2 ^ start < (nonzero + 1) * 2 ^ start := by rw [Nat.succ_mul]; omega
        have h5 := Nat.lt_of_mul_lt_mul_right h3
        have h6 := Nat.lt_of_mul_lt_mul_right h4
        omega
      · rintro rfl; omega
    by_cases hc : B = nonzero
    · rw [if_pos (hiff.2 hc), if_pos hc]
      have hidx : X / 2 ^ (start + extra) * 2 ^ start + X % 2 ^ (start + extra) - nonzero * 2 ^ start =
          X / 2 ^ (start + extra) * 2 ^ start + X % 2 ^ start := by
        rw [hcol, ← hc, Nat.mul_comm (2 ^ start) B]; omega
      have hrow : X / 2 ^ (start + extra) < 2 ^ (n - start) := by
        rw [Nat.div_lt_iff_lt_mul (Nat.two_pow_pos _), ← Nat.pow_add,
          show n - start + (start + extra) = n + extra by omega]
        omega
      have hlt : X / 2 ^ (start + extra) * 2 ^ start + X % 2 ^ start < evals.size := by
        have h1 : X / 2 ^ (start + extra) * 2 ^ start + 2 ^ start ≤ 2 ^ (n - start) * 2 ^ start := by
          rw [← Nat.succ_mul]; exact Nat.mul_le_mul_right _ hrow
        have h2 : 2 ^ (n - start) * 2 ^ start = 2 ^ n := by
          rw [← Nat.pow_add]; congr 1; omega
        omega
      rw [hidx, Slice.get?_of_lt hlt, Option.bind_some]
    · rw [if_neg (fun h => hc (hiff.1 h)), if_neg hc, Slice.set?_of_lt (by omega)]
      congr 1
      cases o
      congr 1
      funext i
      split
      · rename_i h; rw [h]
      · rfl
  obtain ⟨o', e, s, v⟩ := hupd ⟨2 ^ (n + extra - w') * 2 ^ w', fun _ => 0⟩ rfl
  refine ⟨o', by rw [e]; rfl, s, fun x hx => ?_⟩
  rw [v, if_pos (by omega)]
  rfl

end Verif.Fold
