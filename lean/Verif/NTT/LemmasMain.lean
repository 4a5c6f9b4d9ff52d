import Verif.NTT.LemmasLayers

/-! The whole single-threaded transforms as sequences of layers. -/

set_option linter.unusedSectionVars false

namespace Verif.NTT

open Finset Spec

variable {F : Type*} [Field F] [DecidableEq F]

/-- The inverse layers `0, …, k-1`. -/
def invLayers (γ : List F) (lx ly coset : Nat) (g : Nat → F) : Nat → Nat → F
  | 0 => g
  | k + 1 => invLayer (lx + k) (twid γ ly coset k) (invLayers γ lx ly coset g k)

theorem invLayers_fwdLayers (h2 : (1 : F) + 1 = 0) (γ : List F) (lx ly coset s : Nat) (g : Nat → F) : ∀ k, k ≤ s →
    invLayers γ lx ly coset (fwdLayers γ lx ly coset s g s) k = fwdLayers γ lx ly coset s g (s - k)
  | 0, _ => rfl
  | k + 1, hk => by
    rw [invLayers, invLayers_fwdLayers h2 γ lx ly coset s g k (by omega),
      show s - k = (s - (k + 1)) + 1 by omega, fwdLayers, show s - 1 - (s - (k + 1)) = k by omega, inv_fwd h2]

theorem fwdLayers_invLayers (h2 : (1 : F) + 1 = 0) (γ : List F) (lx ly coset s : Nat) (g : Nat → F) : ∀ k, k ≤ s →
    fwdLayers γ lx ly coset s (invLayers γ lx ly coset g s) k = invLayers γ lx ly coset g (s - k)
  | 0, _ => rfl
  | k + 1, hk => by
    rw [fwdLayers, fwdLayers_invLayers h2 γ lx ly coset s g k (by omega),
      show s - k = (s - 1 - k) + 1 by omega, invLayers, fwd_inv h2, show s - (k + 1) = s - 1 - k by omega]

theorem fwdLayers_congr {γ : List F} {lx ly coset s n : Nat} (hn : lx + s ≤ n) {g g' : Nat → F}
    (h : ∀ p < 2 ^ n, g p = g' p) : ∀ k, k ≤ s → ∀ p < 2 ^ n,
    fwdLayers γ lx ly coset s g k p = fwdLayers γ lx ly coset s g' k p
  | 0, _ => h
  | k + 1, hk => fwdLayer_congr _ (by omega) (fwdLayers_congr hn h k (by omega))

theorem invLayers_congr {γ : List F} {lx ly coset s n : Nat} (hn : lx + s ≤ n) {g g' : Nat → F}
    (h : ∀ p < 2 ^ n, g p = g' p) : ∀ k, k ≤ s → ∀ p < 2 ^ n,
    invLayers γ lx ly coset g k p = invLayers γ lx ly coset g' k p
  | 0, _ => h
  | k + 1, hk => invLayer_congr _ (by omega) (invLayers_congr hn h k (by omega))

/-- A shape and its parameters fit a table and a slice of at least two packed elements. -/
structure Fits (w : Nat) (β : List F) (lx ly lz coset cb skip : Nat) (size : Nat) : Prop where
  size : size = 2 * 2 ^ (lx + ly + lz - (w + 1))
  skip : skip ≤ ly
  coset : coset < 2 ^ cb
  domain : ly + cb ≤ β.length

theorem forwardMain_eq (h2 : (1 : F) + 1 = 0) {w : Nat} {tas : List (TA F)} {β : List F} (hr : Ready tas β)
    (hind : Independent β) {lx ly lz coset cb skip : Nat} {d : Slice (Lanes F)}
    (hf : Fits w β lx ly lz coset cb skip d.size) :
    ∃ d', forwardMain β.length w tas d ⟨lx, ly, lz⟩ coset cb skip = some d' ∧ d'.size = d.size ∧
      ∀ p < 2 ^ (lx + ly + lz), flat w d' p =
        fwdLayers (domainBasis β (ly + cb)) lx ly coset (ly - skip) (flat w d) (ly - skip) p := by
  obtain ⟨hsize, hskip, hcos, hdom⟩ := hf
  have hr' := hr.domain h2 hind hdom
  have hγ := domainBasis_length hdom
  obtain ⟨γ, hγe⟩ : ∃ γ, γ = domainBasis β (ly + cb) := ⟨_, rfl⟩
  rw [← hγe] at hr' hγ ⊢
  obtain ⟨s, hs⟩ : ∃ s, s = ly - skip := ⟨_, rfl⟩
  unfold forwardMain forRangeRev
  dsimp only
  rw [← hs, Nat.sub_zero]
  have up := forRange_inv (n := s - (w - lx))
    (body := fun k d => upperLayer butterflyFwd w (List.drop (β.length - (ly + cb)) tas) ⟨lx, ly, lz⟩ coset (s - 1 - k) d)
    (s := d)
    (fun k (d' : Slice (Lanes F)) => d'.size = d.size ∧
      ∀ p < 2 ^ (lx + ly + lz), flat w d' p = fwdLayers γ lx ly coset s (flat w d) k p)
    ⟨rfl, fun p _ => rfl⟩ (by
      rintro k hk d1 ⟨hd1, hp1⟩
      obtain ⟨d2, e, hd2, hp2⟩ := upperLayer_eq (op := fwdOp) (bf := butterflyFwd) (lz := lz) (i := s - 1 - k) (w := w)
        (lx := lx) (d := d1) h2
        (fun t a b d ha hb hab => butterflyFwd_eq ha hb hab) hr' hγ hcos (by omega) (by omega) (by
          rw [hd1, hsize, ← Nat.pow_succ']; congr 1; omega)
      refine ⟨d2, e, hd2.trans hd1, fun p hp => ?_⟩
      rw [hp2 p hp, layer_fwd, fwdLayers]
      exact fwdLayer_congr _ (by omega) hp1 p hp)
  obtain ⟨d1, e1, hd1, hp1⟩ := up
  rw [e1, Option.bind_some]
  have low := forRange_inv (n := min (w - lx) s)
    (body := fun k d => lowerLayer packedFwd w (List.drop (β.length - (ly + cb)) tas) ⟨lx, ly, lz⟩ coset
      (min (w - lx) s - 1 - k) d) (s := d1)
    (fun k (d' : Slice (Lanes F)) => d'.size = d.size ∧
      ∀ p < 2 ^ (lx + ly + lz), flat w d' p = fwdLayers γ lx ly coset s (flat w d) (s - (w - lx) + k) p)
    ⟨hd1, hp1⟩ (by
      rintro k hk d1 ⟨hd1, hp1⟩
      obtain ⟨d2, e, hd2, hp2⟩ := lowerLayer_eq (op := fwdOp) (bf := packedFwd) (lz := lz)
        (i := min (w - lx) s - 1 - k) (w := w) (lx := lx) (d := d1) h2
        packedFwd_eq hr' hγ hcos (by omega) (by omega) (by
          rw [hd1, hsize])
      refine ⟨d2, e, hd2.trans hd1, fun p hp => ?_⟩
      rw [hp2 p hp, layer_fwd, ← Nat.add_assoc, fwdLayers,
        show min (w - lx) s - 1 - k = s - 1 - (s - (w - lx) + k) by omega]
      exact fwdLayer_congr _ (by omega) hp1 p hp)
  obtain ⟨d2, e2, hd2, hp2⟩ := low
  refine ⟨d2, e2, hd2, ?_⟩
  rw [show s - (w - lx) + min (w - lx) s = s by omega] at hp2
  exact hp2

theorem inverseMain_eq (h2 : (1 : F) + 1 = 0) {w : Nat} {tas : List (TA F)} {β : List F} (hr : Ready tas β)
    (hind : Independent β) {lx ly lz coset cb skip : Nat} {d : Slice (Lanes F)}
    (hf : Fits w β lx ly lz coset cb skip d.size) :
    ∃ d', inverseMain β.length w tas d ⟨lx, ly, lz⟩ coset cb skip = some d' ∧ d'.size = d.size ∧
      ∀ p < 2 ^ (lx + ly + lz), flat w d' p =
        invLayers (domainBasis β (ly + cb)) lx ly coset (flat w d) (ly - skip) p := by
  obtain ⟨hsize, hskip, hcos, hdom⟩ := hf
  have hr' := hr.domain h2 hind hdom
  have hγ := domainBasis_length hdom
  obtain ⟨γ, hγe⟩ : ∃ γ, γ = domainBasis β (ly + cb) := ⟨_, rfl⟩
  rw [← hγe] at hr' hγ ⊢
  obtain ⟨s, hs⟩ : ∃ s, s = ly - skip := ⟨_, rfl⟩
  unfold inverseMain forFromTo
  dsimp only
  rw [← hs, Nat.sub_zero]
  have low := forRange_inv (n := min (w - lx) s)
    (body := fun k d => lowerLayer packedInv w (List.drop (β.length - (ly + cb)) tas) ⟨lx, ly, lz⟩ coset
      (0 + k) d) (s := d)
    (fun k (d' : Slice (Lanes F)) => d'.size = d.size ∧
      ∀ p < 2 ^ (lx + ly + lz), flat w d' p = invLayers γ lx ly coset (flat w d) k p)
    ⟨rfl, fun _ _ => rfl⟩ (by
      rintro k hk d1 ⟨hd1, hp1⟩
      obtain ⟨d2, e, hd2, hp2⟩ := lowerLayer_eq (op := invOp) (bf := packedInv) (lz := lz)
        (i := 0 + k) (w := w) (lx := lx) (d := d1) h2
        packedInv_eq hr' hγ hcos (by omega) (by omega) (by
          rw [hd1, hsize])
      refine ⟨d2, e, hd2.trans hd1, fun p hp => ?_⟩
      rw [hp2 p hp, layer_inv, invLayers, Nat.zero_add]
      exact invLayer_congr _ (by omega) hp1 p hp)
  obtain ⟨d1, e1, hd1, hp1⟩ := low
  rw [e1, Option.bind_some]
  have up := forRange_inv (n := s - (w - lx))
    (body := fun k d => upperLayer butterflyInv w (List.drop (β.length - (ly + cb)) tas) ⟨lx, ly, lz⟩ coset
      (w - lx + k) d)
    (s := d1)
    (fun k (d' : Slice (Lanes F)) => d'.size = d.size ∧
      ∀ p < 2 ^ (lx + ly + lz), flat w d' p = invLayers γ lx ly coset (flat w d) (min (w - lx) s + k) p)
    ⟨hd1, hp1⟩ (by
      rintro k hk d1 ⟨hd1, hp1⟩
      obtain ⟨d2, e, hd2, hp2⟩ := upperLayer_eq (op := invOp) (bf := butterflyInv) (lz := lz) (i := w - lx + k) (w := w)
        (lx := lx) (d := d1) h2
        (fun t a b d ha hb hab => butterflyInv_eq ha hb hab) hr' hγ hcos (by omega) (by omega) (by
          rw [hd1, hsize, ← Nat.pow_succ']; congr 1; omega)
      refine ⟨d2, e, hd2.trans hd1, fun p hp => ?_⟩
      rw [hp2 p hp, layer_inv, show min (w - lx) s + (k + 1) = (w - lx + k) + 1 by omega, invLayers]
      rw [show min (w - lx) s = w - lx by omega] at hp1
      exact invLayer_congr _ (by omega) hp1 p hp)
  obtain ⟨d2, e2, hd2, hp2⟩ := up
  refine ⟨d2, e2, hd2, ?_⟩
  rw [show min (w - lx) s + (s - (w - lx)) = s by omega] at hp2
  exact hp2

/-! ### The checks and the length dispatch -/

theorem check_ok {L size w lx ly lz coset cb skip : Nat} :
    check L size w ⟨lx, ly, lz⟩ coset cb skip = .ok () ↔
      ((∃ k, size = 2 ^ k) ∧ skip ≤ ly ∧ SizeOk w lx ly lz size ∧ coset < 2 ^ cb ∧ ly + cb ≤ L) := by
  have hpow : (∃ k ∈ List.range (size + 1), size = 2 ^ k) ↔ ∃ k, size = 2 ^ k := by
    constructor
    · rintro ⟨k, _, h⟩; exact ⟨k, h⟩
    · rintro ⟨k, h⟩
      refine ⟨k, List.mem_range.2 ?_, h⟩
      have := Nat.lt_two_pow_self (n := k)
      omega
  unfold check
  dsimp only
  by_cases h1 : ∃ k, size = 2 ^ k
  swap
  · rw [if_pos (mt hpow.1 h1)]; simp [h1]
  rw [if_neg (not_not.2 (hpow.2 h1))]
  by_cases h2 : skip > ly
  · rw [if_pos h2]; simp; intros; omega
  rw [if_neg h2]
  have hsz : ¬ (((1 <<< ly ≠ (size * 2 ^ w) >>> (lx + lz)) ∧ size > 2) ∨ 1 <<< ly > (size * 2 ^ w) >>> (lx + lz)) ↔
      SizeOk w lx ly lz size := by
    obtain ⟨k, rfl⟩ := h1
    rw [Nat.one_shiftLeft, Nat.shiftRight_eq_div_pow, ← Nat.pow_add]
    unfold SizeOk
    have hk : (2 ^ k = 1 ∨ 2 ^ k = 2) ↔ ¬ 2 ^ k > 2 := by have := Nat.two_pow_pos k; omega
    rw [hk, ← Nat.pow_add]
    have hT : 2 ^ (lx + ly + lz) ≤ 2 ^ (k + w) ↔ lx + ly + lz ≤ k + w := Nat.pow_le_pow_iff_right (by omega)
    have hT2 : 2 ^ (k + w) = 2 ^ (lx + ly + lz) ↔ k + w = lx + ly + lz := Nat.pow_right_inj (by omega)
    rw [hT, hT2]
    rcases Nat.lt_or_ge (k + w) (lx + lz) with h | h
    · rw [Nat.div_eq_of_lt (Nat.pow_lt_pow_right (by omega) h)]
      have := Nat.two_pow_pos ly
      omega
    · rw [Nat.pow_div h (by omega)]
      have e1 : 2 ^ ly = 2 ^ (k + w - (lx + lz)) ↔ ly = k + w - (lx + lz) := Nat.pow_right_inj (by omega)
      have e2 : 2 ^ (k + w - (lx + lz)) < 2 ^ ly ↔ k + w - (lx + lz) < ly := Nat.pow_lt_pow_iff_right (by omega)
      simp only [gt_iff_lt]
      rw [e2, Ne, e1]
      omega
  by_cases h3 : ((1 <<< ly ≠ (size * 2 ^ w) >>> (lx + lz)) ∧ size > 2) ∨ 1 <<< ly > (size * 2 ^ w) >>> (lx + lz)
  · rw [if_pos h3]
    simp only [reduceCtorEq, false_iff]
    rintro ⟨_, _, h, _⟩
    exact hsz.2 h h3
  rw [if_neg h3]
  have h3' := hsz.1 h3
  rw [Nat.one_shiftLeft]
  by_cases h4 : coset ≥ 2 ^ cb
  · rw [if_pos h4]; simp; intros; omega
  rw [if_neg h4]
  by_cases h5 : ly + cb > L
  · rw [if_pos h5]; simp; intros; omega
  rw [if_neg h5]
  simp only [true_iff]
  exact ⟨h1, by omega, h3', by omega, by omega⟩

theorem sizeOk_two {w lx ly lz size : Nat} (hp : ∃ k, size = 2 ^ k) (h1 : size ≠ 1) (h : SizeOk w lx ly lz size) :
    size = 2 * 2 ^ (lx + ly + lz - (w + 1)) := by
  obtain ⟨k, rfl⟩ := hp
  have hk : k ≠ 0 := by rintro rfl; exact h1 rfl
  unfold SizeOk at h
  rw [← Nat.pow_succ']
  rcases h with h | ⟨h, h'⟩
  · rw [← Nat.pow_add] at h
    have := (Nat.pow_right_inj (by omega)).1 h
    congr 1; omega
  · have h2 : 2 ^ k = 2 ^ 1 := by omega
    have := (Nat.pow_right_inj (by omega)).1 h2
    subst this
    rw [← Nat.pow_add] at h'
    have := (Nat.pow_le_pow_iff_right (by omega)).1 h'
    congr 1; omega

theorem sizeOk_one {w lx ly lz : Nat} (h : SizeOk w lx ly lz 1) : lx + ly + lz ≤ w ∧ SizeOk w lx ly lz 2 := by
  unfold SizeOk at *
  have hle : 2 ^ (lx + ly + lz) ≤ 2 ^ w := by omega
  exact ⟨(Nat.pow_le_pow_iff_right (by omega)).1 hle, Or.inr ⟨Or.inr rfl, by omega⟩⟩

/-- The dispatch on the length, given what the main part does. -/
theorem withBuffer_eq {main : Slice (Lanes F) → Option (Slice (Lanes F))} {L w lx ly lz coset cb skip : Nat}
    {R : (Nat → F) → Nat → F}
    (hR0 : w = 0 → ly = 0 → ∀ g p, R g p = g p)
    (hRc : ∀ g g', (∀ p < 2 ^ (lx + ly + lz), g p = g' p) → ∀ p < 2 ^ (lx + ly + lz), R g p = R g' p)
    {d : Slice (Lanes F)}
    (hmain : ∀ d : Slice (Lanes F), d.size = 2 * 2 ^ (lx + ly + lz - (w + 1)) → ∃ d', main d = some d' ∧
      d'.size = d.size ∧ ∀ p < 2 ^ (lx + ly + lz), flat w d' p = R (flat w d) p)
    (hok : check L d.size w ⟨lx, ly, lz⟩ coset cb skip = .ok ()) :
    ∃ d', withBuffer main (fun len => check L len w ⟨lx, ly, lz⟩ coset cb skip) w d = some (.ok d') ∧
      d'.size = d.size ∧ ∀ p < 2 ^ (lx + ly + lz), flat w d' p = R (flat w d) p := by
  obtain ⟨hpow, hskip, hso, hcos, hdom⟩ := check_ok.1 hok
  have hpos : d.size ≠ 0 := by
    obtain ⟨k, hk⟩ := hpow
    have := Nat.two_pow_pos k
    omega
  unfold withBuffer
  dsimp only
  rw [hok]
  dsimp only
  rw [if_neg hpos]
  by_cases h1 : d.size = 1
  · rw [if_pos h1]
    rw [h1] at hso
    obtain ⟨hT, hso2⟩ := sizeOk_one hso
    by_cases hw : w = 0
    · rw [if_pos hw]
      exact ⟨d, rfl, rfl, fun p _ => (hR0 hw (by omega) _ p).symm⟩
    · rw [if_neg hw, check_ok (size := 2) |>.2 ⟨⟨1, rfl⟩, hskip, hso2, hcos, hdom⟩]
      dsimp only
      obtain ⟨d', e, hsz, hp⟩ := hmain ⟨2, fun i => if i = 0 then d.val 0 else fun _ => 0⟩ (by
        rw [show lx + ly + lz - (w + 1) = 0 by omega]; rfl)
      have hsz : d'.size = 2 := hsz
      rw [e, Option.bind_some, Slice.get?_of_lt (by omega), Option.bind_some, Slice.set?_of_lt (by omega)]
      refine ⟨_, rfl, rfl, fun p hpp => ?_⟩
      have hpw : p < 2 ^ w := lt_of_lt_of_le hpp (Nat.pow_le_pow_right (by omega) hT)
      have e0 : flat w ⟨d.size, fun j => if j = 0 then d'.val 0 else d.val j⟩ p = flat w d' p := by
        unfold flat
        dsimp only
        rw [Nat.div_eq_of_lt hpw, if_pos rfl]
      rw [e0, hp p hpp]
      refine hRc _ _ (fun q hq => ?_) p hpp
      have hqw : q < 2 ^ w := lt_of_lt_of_le hq (Nat.pow_le_pow_right (by omega) hT)
      unfold flat
      dsimp only
      rw [Nat.div_eq_of_lt hqw, if_pos rfl]
  · rw [if_neg h1]
    obtain ⟨d', e, hsz, hp⟩ := hmain d (sizeOk_two hpow h1 hso)
    exact ⟨d', by rw [e]; rfl, hsz, hp⟩

theorem forward_eq (h2 : (1 : F) + 1 = 0) {w : Nat} {tas : List (TA F)} {β : List F} (hr : Ready tas β)
    (hind : Independent β) {lx ly lz coset cb skip : Nat} {d : Slice (Lanes F)}
    (hok : check β.length d.size w ⟨lx, ly, lz⟩ coset cb skip = .ok ()) :
    ∃ d', forward β.length w tas d ⟨lx, ly, lz⟩ coset cb skip = some (.ok d') ∧ d'.size = d.size ∧
      ∀ p < 2 ^ (lx + ly + lz), flat w d' p =
        fwdLayers (domainBasis β (ly + cb)) lx ly coset (ly - skip) (flat w d) (ly - skip) p := by
  obtain ⟨hpow, hskip, hso, hcos, hdom⟩ := check_ok.1 hok
  refine withBuffer_eq (R := fun g => fwdLayers (domainBasis β (ly + cb)) lx ly coset (ly - skip) g (ly - skip))
    (fun _ hl g p => ?_) (fun g g' h => fwdLayers_congr (by omega) h _ le_rfl) (fun d hd => ?_) hok
  · rw [show ly - skip = 0 by omega]; rfl
  · exact forwardMain_eq h2 hr hind ⟨hd, hskip, hcos, hdom⟩

theorem inverse_eq (h2 : (1 : F) + 1 = 0) {w : Nat} {tas : List (TA F)} {β : List F} (hr : Ready tas β)
    (hind : Independent β) {lx ly lz coset cb skip : Nat} {d : Slice (Lanes F)}
    (hok : check β.length d.size w ⟨lx, ly, lz⟩ coset cb skip = .ok ()) :
    ∃ d', inverse β.length w tas d ⟨lx, ly, lz⟩ coset cb skip = some (.ok d') ∧ d'.size = d.size ∧
      ∀ p < 2 ^ (lx + ly + lz), flat w d' p =
        invLayers (domainBasis β (ly + cb)) lx ly coset (flat w d) (ly - skip) p := by
  obtain ⟨hpow, hskip, hso, hcos, hdom⟩ := check_ok.1 hok
  refine withBuffer_eq (R := fun g => invLayers (domainBasis β (ly + cb)) lx ly coset g (ly - skip))
    (fun _ hl g p => ?_) (fun g g' h => invLayers_congr (by omega) h _ le_rfl) (fun d hd => ?_) hok
  · rw [show ly - skip = 0 by omega]; rfl
  · exact inverseMain_eq h2 hr hind ⟨hd, hskip, hcos, hdom⟩

end Verif.NTT
