import Verif.Compute.LemmasViews

/-! Property C39: memory handles and the bump allocator. -/

namespace Verif.Compute

/-- **C39.** Over every history of allocations and scopes on a buffer of `L` scalars, however the sizes are chosen: the
slices that are alive, in all the scopes, do not overlap each other, lie inside the buffer and do not overlap what the
innermost allocator has left; and what it has left is the buffer less the slices, each rounded up to the alignment. -/
theorem C39_disjoint (w L : Nat) (hL : 2 ^ w ∣ L) (ops : List Op) (s : Scope) (ss : List Scope)
    (hr : run w [⟨.slice 0 L, []⟩] ops = some (s :: ss)) :
    ((s :: ss).flatMap Scope.live).Pairwise Apart ∧
    (∀ h ∈ (s :: ss).flatMap Scope.live, h.start + h.len ≤ L ∧ Apart h s.buffer) ∧
    s.buffer.len + (((s :: ss).flatMap Scope.live).map fun h => max h.len (2 ^ w)).sum = L := by
  have hi : Inv w L (s :: ss) := run_inv hL (ss := [⟨.slice 0 L, []⟩])
    ⟨⟨0, rfl, by omega, Nat.dvd_zero _, List.Pairwise.nil, by simp, rfl⟩, trivial⟩ hr
  obtain ⟨h1, h2, h3⟩ := hi.all
  obtain ⟨⟨a, g1, g2, -, -⟩, -⟩ := hi
  have hb : base (s :: ss) = a := by rw [base, g1]; rfl
  have hl : s.buffer.len = L - a := by rw [g1]; rfl
  have hs : s.buffer.start = a := by rw [g1]; rfl
  rw [hb] at h2 h3
  refine ⟨h1, fun h hh => ⟨(h2 h hh).trans g2, fun x hx => ?_⟩, by omega⟩
  have := h2 h hh
  obtain ⟨⟨-, e1⟩, e2, -⟩ := hx
  omega

/-- The history of the code's own test, with a scope in between and packed elements of four scalars. -/
example : ∃ s ss, run 2 [⟨.slice 0 256, []⟩] [.alloc 100, .alloc 2, .enter, .alloc 100, .alloc 100, .alloc 1, .leave,
    .alloc 8] = some (s :: ss) ∧ s.live = [.slice 104 8, .single 100 2, .slice 0 100] := ⟨_, _, rfl, rfl⟩

/-- **C39.** `alloc` of a size that is a multiple of the alignment, or a power of two below it, and not zero: it fails if
and only if fewer elements remain, and otherwise gives a slice of exactly `n` elements at the start of what remained, and
what remains decreases by `n`, rounded up to the alignment. -/
theorem C39_alloc (w s l n : Nat) (hl : 2 ^ w ∣ l) (hn : 0 < n) (hpre : 2 ^ w ∣ n ∨ ∃ k ≤ w, n = 2 ^ k) :
    (l < n → alloc w (.slice s l) n = .outOfMemory) ∧
    (n ≤ l → max n (2 ^ w) ≤ l ∧
      ∃ h, alloc w (.slice s l) n = .ok h (.slice (s + max n (2 ^ w)) (l - max n (2 ^ w))) ∧ h.start = s ∧ h.len = n) := by
  refine ⟨fun h => by rw [alloc, if_pos (by simpa [Handle.len] using h)], fun h => ?_⟩
  obtain ⟨h1, -, h2⟩ := alloc_ok (s := s) hl hn h hpre
  exact ⟨h1, h2⟩

example : (2 : Nat) ^ 2 ∣ 12 ∧ ∃ h, alloc 2 (.slice 4 12) 2 = .ok h (.slice 8 8) ∧ h = .single 4 2 :=
  ⟨by decide, _, rfl, rfl⟩

/-- **C39, negative.** The other sizes panic instead of failing, and so does every allocation from a buffer with less than
one packed element that has enough elements.  In particular `alloc(0)` panics, for every memory. -/
theorem C39_alloc_panics (w s l n : Nat) :
    (n ≤ l → n = 0 ∨ ¬ (2 ^ w ∣ n ∨ ∃ k ≤ w, n = 2 ^ k) → alloc w (.slice s l) n = .panic) ∧
    (n ≤ l → alloc w (.single s l) n = .panic) ∧ alloc w (.slice s l) 0 = .panic := by
  refine ⟨alloc_panic, fun h => ?_, alloc_panic (by omega) (Or.inl rfl)⟩
  have h2 : splitAtMut w (.single s l) (max n (2 ^ w)) = none := by
    show (if _ then none else none) = none
    rw [ite_self]
  rw [alloc, if_neg (by simp only [Handle.len]; omega), h2]

/-- **C39.** `split_half_mut` of a handle for whole packed elements, or for scalars of one: it succeeds exactly for
lengths that are powers of two from two on, and then gives the two halves, one after the other. -/
theorem C39_split_half (w : Nat) (h : Handle)
    (hh : match h with | .slice _ l => 2 ^ w ∣ l | .single _ _ => True) :
    ((splitHalfMut w h).isSome ↔ ∃ k, h.len = 2 ^ (k + 1)) ∧
    ∀ a b, splitHalfMut w h = some (a, b) →
      a.start = h.start ∧ 2 * a.len = h.len ∧ b.start = h.start + a.len ∧ b.len = a.len := by
  have hc : ((strictLog2 h.len).isSome ∧ 1 < h.len) ↔ ∃ k, h.len = 2 ^ (k + 1) := by
    constructor
    · rintro ⟨h1, h2⟩
      obtain ⟨k, hk⟩ := Option.isSome_iff_exists.mp h1
      rw [strictLog2_eq] at hk
      cases k with
      | zero => rw [hk] at h2; simp at h2
      | succ k => exact ⟨k, hk⟩
    · rintro ⟨k, hk⟩
      exact ⟨by rw [strictLog2_eq.2 hk]; rfl, by rw [hk, pow_succ]; have := Nat.two_pow_pos k; omega⟩
  unfold splitHalfMut
  by_cases hp : (strictLog2 h.len).isSome ∧ 1 < h.len
  swap
  · rw [if_neg hp]
    exact ⟨by simpa using fun k hk => hp (hc.mpr ⟨k, hk⟩), by simp⟩
  rw [if_pos hp]
  obtain ⟨k, hk⟩ := hc.mp hp
  have h2k := Nat.two_pow_pos k
  cases h with
  | single s l =>
    have hl : l = 2 ^ k * 2 := by rw [← pow_succ]; exact hk
    refine ⟨⟨fun _ => ⟨k, hk⟩, fun _ => rfl⟩, fun a b hab => ?_⟩
    simp only [Option.some.injEq, Prod.mk.injEq] at hab
    obtain ⟨rfl, rfl⟩ := hab
    exact ⟨rfl, by show 2 * (l / 2) = l; omega, rfl, by show l - l / 2 = l / 2; omega⟩
  | slice s l =>
    have hl : l = 2 ^ (k + 1) := hk
    have hh : 2 ^ w ∣ l := hh
    have hwk : w ≤ k + 1 := by
      rw [hl] at hh
      exact (Nat.pow_dvd_pow_iff_le_right (by omega)).mp hh
    obtain ⟨j, hj⟩ := Nat.exists_eq_add_of_le hwk
    have hdiv : l / 2 ^ w = 2 ^ j := by
      rw [hl, hj, pow_add, Nat.mul_div_cancel_left _ (Nat.two_pow_pos w)]
    have hle : ∃ k, l = 2 ^ (k + 1) := ⟨k, hl⟩
    cases j with
    | zero =>
      have hw : 2 ^ w = 2 ^ k * 2 := by rw [← pow_succ, hj]; rfl
      dsimp only
      rw [hdiv, if_neg (by simp), if_pos (by simp)]
      refine ⟨⟨fun _ => hle, fun _ => rfl⟩, fun a b hab => ?_⟩
      simp only [Option.some.injEq, Prod.mk.injEq] at hab
      obtain ⟨rfl, rfl⟩ := hab
      exact ⟨rfl, by show 2 * (2 ^ w / 2) = l; rw [hl, pow_succ]; omega, rfl, rfl⟩
    | succ j =>
      have hmid : l / 2 ^ w / 2 * 2 ^ w * 2 = l := by
        rw [hdiv, pow_succ, Nat.mul_div_cancel _ (by omega), hl, hj, pow_add, pow_succ,
          Nat.mul_comm (2 ^ j) (2 ^ w), Nat.mul_assoc]
      dsimp only
      rw [if_pos (by rw [hdiv, pow_succ]; have := Nat.two_pow_pos j; omega)]
      refine ⟨⟨fun _ => hle, fun _ => rfl⟩, fun a b hab => ?_⟩
      simp only [Option.some.injEq, Prod.mk.injEq] at hab
      obtain ⟨rfl, rfl⟩ := hab
      refine ⟨rfl, ?_, rfl, ?_⟩
      · show 2 * (l / 2 ^ w / 2 * 2 ^ w) = l
        omega
      · show l - l / 2 ^ w / 2 * 2 ^ w = l / 2 ^ w / 2 * 2 ^ w
        omega

example : splitHalfMut 2 (.slice 8 16) = some (.slice 8 8, .slice 16 8) ∧
    splitHalfMut 2 (.slice 8 4) = some (.single 8 2, .single 10 2) ∧
    splitHalfMut 2 (.single 10 2) = some (.single 10 1, .single 11 1) := ⟨rfl, rfl, rfl⟩

theorem toPackedRange_excluded (w l a b : Nat) : toPackedRange w l (.included a) (.excluded b) =
    if a = 0 ∧ b = l then some (0, l) else if a % 2 ^ w ≠ 0 ∨ b % 2 ^ w ≠ 0 then none
      else some (a / 2 ^ w, b / 2 ^ w) := rfl

theorem slicePacked_slice (w s l : Nat) (a b : Bnd) : slicePacked w (.slice s l) a b =
    (toPackedRange w l a b).bind fun x => if x.1 = 0 ∧ x.2 = l then some (.slice s l)
      else if x.1 ≤ x.2 ∧ x.2 ≤ l / 2 ^ w then some (.slice (s + x.1 * 2 ^ w) ((x.2 - x.1) * 2 ^ w)) else none := rfl

/-- **C39.** `slice` and `slice_mut` of an aligned range inside a slice of whole packed elements is that range. -/
theorem C39_slice (w s l a b : Nat) (hl : 2 ^ w ∣ l) (ha : 2 ^ w ∣ a) (hb : 2 ^ w ∣ b) (hab : a ≤ b) (hbl : b ≤ l) :
    slicePacked w (.slice s l) (.included a) (.excluded b) = some (.slice (s + a) (b - a)) := by
  have hp := Nat.two_pow_pos w
  rw [slicePacked_slice, toPackedRange_excluded]
  by_cases h0 : a = 0 ∧ b = l
  · obtain ⟨rfl, rfl⟩ := h0
    rw [if_pos ⟨rfl, rfl⟩, Option.bind_some]
    dsimp only
    rw [if_pos ⟨rfl, rfl⟩]
    rfl
  · rw [if_neg h0, if_neg (by rw [Nat.mod_eq_zero_of_dvd ha, Nat.mod_eq_zero_of_dvd hb]; simp), Option.bind_some]
    dsimp only
    obtain ⟨a, rfl⟩ := ha
    obtain ⟨b, rfl⟩ := hb
    obtain ⟨l, rfl⟩ := hl
    have hab' : a ≤ b := Nat.le_of_mul_le_mul_left hab hp
    have hbl' : b ≤ l := Nat.le_of_mul_le_mul_left hbl hp
    rw [Nat.mul_div_cancel_left _ hp, Nat.mul_div_cancel_left _ hp, Nat.mul_div_cancel_left _ hp]
    have key : ¬ (a = 0 ∧ b = 2 ^ w * l) := by
      rintro ⟨rfl, rfl⟩
      refine h0 ⟨by simp, ?_⟩
      have h2 : l ≤ 2 ^ w * l := Nat.le_mul_of_pos_left l hp
      rw [show 2 ^ w * l = l by omega, show 2 ^ w * l = l by omega]
    rw [if_neg key, if_pos ⟨hab', hbl'⟩, Nat.mul_comm a, Nat.sub_mul, Nat.mul_comm b, Nat.mul_comm a]

example : slicePacked 2 (.slice 100 12) (.included 4) (.excluded 8) = some (.slice 104 4) := rfl

/-- **C39.** Host memory is the memory with alignment one, and its ranges are those of Rust slices. -/
theorem C39_slice_cpu (s l : Nat) (a b : Bnd) : slicePacked 0 (.slice s l) a b = sliceCpu s l a b := by
  have key : ∀ x y : Nat, ((if x = 0 ∧ y = l then some (0, l) else if x % 2 ^ 0 ≠ 0 ∨ y % 2 ^ 0 ≠ 0 then none
      else some (x / 2 ^ 0, y / 2 ^ 0)).bind fun x : Nat × Nat => if x.1 = 0 ∧ x.2 = l then some (Handle.slice s l)
      else if x.1 ≤ x.2 ∧ x.2 ≤ l / 2 ^ 0 then some (.slice (s + x.1 * 2 ^ 0) ((x.2 - x.1) * 2 ^ 0)) else none) =
      if x ≤ y ∧ y ≤ l then some (.slice (s + x) (y - x)) else none := by
    intro x y
    by_cases h : x = 0 ∧ y = l
    · rw [if_pos h, Option.bind_some]
      dsimp only
      rw [if_pos ⟨rfl, rfl⟩, if_pos (by omega), h.1, h.2]
      rfl
    · rw [if_neg h, if_neg (by simp [Nat.mod_one]), Option.bind_some]
      dsimp only
      rw [pow_zero, Nat.div_one, Nat.div_one, Nat.div_one, if_neg h, Nat.mul_one, Nat.mul_one]
  cases a with
  | included a => cases b <;> exact key _ _
  | excluded a =>
    cases b with
    | included b => exact key (a + 1) (b + 1)
    | excluded b => exact key (a + 1) b
    | unbounded => exact key (a + 1) l
  | unbounded => cases b <;> exact key _ _

/-- **C39, negative.** Packed memory accepts one range that is out of range: from the start to the length times the width,
for which it gives the whole slice. -/
theorem C39_slice_out_of_range (w s l : Nat) (hw : 0 < w) (hl : 0 < l) :
    l < 2 ^ w * l ∧ slicePacked w (.slice s l) .unbounded (.excluded (2 ^ w * l)) = some (.slice s l) := by
  have hp := Nat.two_pow_pos w
  have h1 : 1 < 2 ^ w := Nat.one_lt_two_pow (by omega)
  have h2 : l < 2 ^ w * l := by
    calc l = 1 * l := (Nat.one_mul l).symm
      _ < 2 ^ w * l := Nat.mul_lt_mul_of_pos_right h1 hl
  refine ⟨h2, ?_⟩
  rw [slicePacked_slice, show toPackedRange w l .unbounded (.excluded (2 ^ w * l)) =
    toPackedRange w l (.included 0) (.excluded (2 ^ w * l)) from rfl, toPackedRange_excluded]
  rw [if_neg (by omega), if_neg (by simp), Option.bind_some, Nat.zero_div, Nat.mul_div_cancel_left _ hp]
  dsimp only
  rw [if_pos ⟨rfl, rfl⟩]

/-- **C39, negative.** A range with an included end is longer in packed memory than the range of the same bounds of a Rust
slice: `0..=4` has five elements, and eight here. -/
theorem C39_slice_inclusive : slicePacked 2 (.slice 0 12) (.included 0) (.included 4) = some (.slice 0 8) ∧
    sliceCpu 0 12 (.included 0) (.included 4) = some (.slice 0 5) := ⟨rfl, rfl⟩

/-- **C39.** `slice_power_of_two_mut` gives the first `n` elements, or all if there are fewer, for a power of two `n`
above the alignment; below, it does if the length is a power of two too. -/
theorem C39_slice_power_of_two (w s l n e : Nat) (hl : 2 ^ w ∣ l) (hn : n = 2 ^ e) (h : w < e ∨ ∃ k, l = 2 ^ k) :
    ∃ r, slicePowerOfTwoMut w (.slice s l) n = some r ∧ r.start = s ∧ r.len = min n l := by
  have hp := Nat.two_pow_pos w
  rw [slicePowerOfTwoMut]
  by_cases hle : l ≤ n
  · rw [if_pos (by simpa [Handle.len] using hle)]
    exact ⟨_, rfl, rfl, by show l = _; rw [min_eq_right hle]⟩
  · rw [if_neg (by simpa [Handle.len] using hle)]
    by_cases hwe : 2 ^ w < n
    · have hwe' : w < e := by rw [hn] at hwe; exact (Nat.pow_lt_pow_iff_right (by omega)).1 hwe
      have hdn : 2 ^ w ∣ n := by rw [hn]; exact pow_dvd_pow 2 hwe'.le
      have := C39_slice w s l 0 n hl (Nat.dvd_zero _) hdn (by omega) (by omega)
      rw [if_pos hwe, show slicePacked w (.slice s l) .unbounded (.excluded n) =
        slicePacked w (.slice s l) (.included 0) (.excluded n) from rfl, this, Option.bind_some, hn, strictLog2_eq.2 rfl,
        Option.bind_some]
      dsimp only [Handle.len]
      rw [Nat.sub_zero, strictLog2_eq.2 rfl, Option.bind_some, Nat.sub_self]
      exact ⟨_, rfl, rfl, by show 2 ^ e = _; rw [min_eq_left (by omega)]⟩
    · rw [if_neg hwe, Option.bind_some]
      have hwe' : ¬ w < e := by
        intro hc; rw [hn] at hwe; exact hwe ((Nat.pow_lt_pow_iff_right (by omega)).2 hc)
      obtain ⟨k, rfl⟩ := h.resolve_left hwe'
      have hwk : w ≤ k := (Nat.pow_dvd_pow_iff_le_right (by omega)).1 hl
      have hek : e < k := by
        rw [hn] at hle
        exact (Nat.pow_lt_pow_iff_right (by omega)).1 (by omega : 2 ^ e < 2 ^ k)
      rw [hn, strictLog2_eq.2 rfl, Option.bind_some, show (Handle.slice s (2 ^ k)).len = 2 ^ k from rfl,
        strictLog2_eq.2 rfl, Option.bind_some, min_eq_left (Nat.pow_le_pow_right (by omega) hek.le)]
      -- halve down to one packed element, then below
      have down : ∀ (j k : Nat), w ≤ k → j ≤ k → ∃ r, halve w j (.slice s (2 ^ k)) = some r ∧ r.start = s ∧
          r.len = 2 ^ (k - j) := by
        intro j
        induction j with
        | zero => exact fun k _ _ => ⟨_, rfl, rfl, rfl⟩
        | succ j ih =>
          intro k hk hj
          by_cases hkw : k = w
          · subst hkw
            exact halve_slice _ _ s hj
          · have h1 : 1 < 2 ^ k := Nat.one_lt_two_pow (by omega)
            have h2 : 2 ^ k / 2 ^ w = 2 ^ (k - w) := Nat.pow_div hk (by omega)
            have h3 : 2 ^ k / 2 ^ w / 2 * 2 ^ w = 2 ^ (k - 1) := by
              rw [h2, show k - w = (k - w - 1) + 1 by omega, pow_succ, Nat.mul_div_cancel _ (by omega), ← pow_add]
              congr 1; omega
            obtain ⟨r, g1, g2, g3⟩ := ih (k - 1) (by omega) (by omega)
            refine ⟨r, ?_, g2, by rw [g3, show k - 1 - j = k - (j + 1) by omega]⟩
            rw [halve, splitHalfMut, if_pos ⟨by
              rw [show (Handle.slice s (2 ^ k)).len = 2 ^ k from rfl, strictLog2_eq.2 rfl]; rfl, h1⟩]
            dsimp only
            rw [if_pos (by rw [h2]; exact Nat.one_lt_two_pow (by omega)), Option.bind_some, h3, g1]
      obtain ⟨r, g1, g2, g3⟩ := down (k - e) k hwk (by omega)
      exact ⟨r, g1, g2, by rw [g3, show k - (k - e) = e by omega]⟩

example : slicePowerOfTwoMut 2 (.slice 100 24) 8 = some (.slice 100 8) ∧
    slicePowerOfTwoMut 2 (.slice 100 16) 2 = some (.single 100 2) := ⟨rfl, rfl⟩

/-- **C39, negative.** For a power of two up to the alignment, `slice_power_of_two_mut` panics on every longer slice whose
length is not a power of two: the first element of three host elements, for instance. -/
theorem C39_slice_power_of_two_panics (w s l e : Nat) (he : e ≤ w) (hl : 2 ^ e < l) (h : ∀ k, l ≠ 2 ^ k) :
    slicePowerOfTwoMut w (.slice s l) (2 ^ e) = none := by
  have : ¬ 2 ^ w < 2 ^ e := by
    intro hc
    have := (Nat.pow_lt_pow_iff_right (by omega : 1 < 2)).1 hc
    omega
  rw [slicePowerOfTwoMut, if_neg (by simpa [Handle.len] using hl), if_neg this, Option.bind_some, strictLog2_eq.2 rfl,
    Option.bind_some, show (Handle.slice s l).len = l from rfl, strictLog2_none.2 h, Option.bind_none]

example : slicePowerOfTwoMut 0 (.slice 0 3) 1 = none := rfl

/-- **C39.** `slice_chunks_mut` of a slice of whole packed elements into chunks of an aligned size that divides its length
gives the chunks in order; together they are the slice, and no two overlap. -/
theorem C39_slice_chunks (w s l c : Nat) (hc : 2 ^ w ∣ c) (hcl : c ∣ l) (hc0 : 0 < c) (hl0 : 0 < l) :
    ∃ hs, sliceChunksMut w (.slice s l) c = some hs ∧ hs.length = l / c ∧ (∀ h ∈ hs, h.len = c) ∧
      hs.Pairwise Apart ∧ (∀ a, (Handle.slice s l).Covers a ↔ ∃ h ∈ hs, h.Covers a) ∧
      ∀ k h, hs[k]? = some h → h.start = s + k * c := by
  obtain ⟨q, rfl⟩ := hcl
  have hq : 0 < q := Nat.pos_of_mul_pos_left hl0
  have hform : sliceChunksMut w (.slice s (c * q)) c = some ((List.range q).map fun i => .slice (s + i * c) c) := by
    show (if c = c * q then some [Handle.slice s (c * q)]
      else if c % 2 ^ w ≠ 0 ∨ c = 0 ∨ c * q % c ≠ 0 then none
      else some ((List.range (c * q / c)).map fun i => Handle.slice (s + i * c) c)) = _
    by_cases h1 : c = c * q
    · rw [if_pos h1]
      have hq1 : q = 1 := by
        have : c * 1 = c * q := by rw [Nat.mul_one]; exact h1
        exact (Nat.eq_of_mul_eq_mul_left hc0 this).symm
      subst hq1
      simp
    · rw [if_neg h1, if_neg (by rw [Nat.mod_eq_zero_of_dvd hc, Nat.mul_mod_right]; omega)]
      rw [Nat.mul_div_cancel_left _ hc0]
  have hcov : ∀ i a, (Handle.slice (s + i * c) c).Covers a ↔ s + i * c ≤ a ∧ a < s + i * c + c := fun _ _ => Iff.rfl
  refine ⟨_, hform, by simp [Nat.mul_div_cancel_left _ hc0], ?_, ?_, fun a => ?_, ?_⟩
  · intro h hh
    obtain ⟨i, -, rfl⟩ := List.mem_map.1 hh
    rfl
  · refine List.pairwise_map.2 (List.pairwise_lt_range.imp fun {i j} hij a ha => ?_)
    rw [hcov, hcov] at ha
    have : (i + 1) * c ≤ j * c := Nat.mul_le_mul_right c hij
    rw [Nat.add_mul] at this
    omega
  · constructor
    · rintro ⟨h1, h2⟩
      have h1 : s ≤ a := h1
      have h2 : a < s + c * q := h2
      have hd : (a - s) / c < q := Nat.div_lt_of_lt_mul (by omega)
      refine ⟨_, List.mem_map.2 ⟨(a - s) / c, List.mem_range.2 hd, rfl⟩, (hcov _ _).2 ?_⟩
      have e1 := Nat.div_add_mod (a - s) c
      have e2 := Nat.mod_lt (a - s) hc0
      rw [Nat.mul_comm] at e1
      omega
    · rintro ⟨h, hh, h1⟩
      obtain ⟨i, hi, rfl⟩ := List.mem_map.1 hh
      have hi := List.mem_range.1 hi
      rw [hcov] at h1
      have : (i + 1) * c ≤ q * c := Nat.mul_le_mul_right c hi
      rw [Nat.add_mul, Nat.mul_comm q] at this
      refine ⟨by show s ≤ a; omega, by show a < s + c * q; omega⟩
  · intro k h hk
    rw [List.getElem?_map] at hk
    by_cases hkq : k < q
    · rw [List.getElem?_range hkq] at hk
      have := Option.some.inj hk
      rw [← this]
      rfl
    · rw [List.getElem?_eq_none (by simpa using hkq)] at hk
      cases hk

example : sliceChunksMut 2 (.slice 100 24) 8 = some [.slice 100 8, .slice 108 8, .slice 116 8] := rfl

variable {F : Type} [Zero F]

/-- **C39.** Packed memory behaves as memory without copies, over every history of splitting handles in half, down to
single scalars, writing through them and dropping them, in any order: the operations that panic are those on regions that
cannot be split or written, every live handle shows the elements of its region, and memory outside the live handles has
the values written last.  In particular, when no handle is left the memory has all the writes. -/
theorem C39_views (w s l : Nat) (hl : 2 ^ w ∣ l) (m : Nat → F) (ops : List (ViewOp F)) :
    (runView w m [.slice s l] ops = none ↔ specRun m [(s, l)] ops = none) ∧
    ∀ m' vs, runView w m [.slice s l] ops = some (m', vs) →
      ∃ A, specRun m [(s, l)] ops = some (A, vs.map fun v => (v.handle.start, v.handle.len)) ∧
        (∀ v ∈ vs, ∀ i < v.handle.len, readView m' v i = A (v.handle.start + i)) ∧
        (∀ a, (∀ v ∈ vs, ¬ v.handle.Covers a) → m' a = A a) ∧ (vs = [] → m' = A) := by
  have h0 : Rel w m [.slice s l] m := by
    refine ⟨fun v hv => ?_, by simp, fun v hv i hi => ?_, fun a _ => rfl⟩
    · rw [List.mem_singleton.1 hv]; exact hl
    · rw [List.mem_singleton.1 hv]; rfl
  rcases run_refines ops h0 with ⟨m', vs', A', h1, h2, h3⟩ | ⟨h1, h2⟩
  · have h2 : specRun m [(s, l)] ops = some (A', vs'.map View.region) := h2
    refine ⟨by rw [h1, h2]; simp, fun m1 vs1 hr => ?_⟩
    rw [h1] at hr
    injection hr with hr
    injection hr with hr1 hr2
    subst hr1 hr2
    exact ⟨A', h2, h3.seen, fun a ha => h3.rest a fun v hv _ => ha v hv, fun hv => funext fun a =>
      h3.rest a (by rw [hv]; simp)⟩
  · have h2 : specRun m [(s, l)] ops = none := h2
    refine ⟨by rw [h1, h2]; simp, fun m1 vs1 hr => ?_⟩
    rw [h1] at hr
    cases hr

/-- One packed element of four scalars is split twice; the pieces are written and dropped. -/
example : ∃ m', runView 2 (fun a => (a : Int)) [.slice 0 4] [.splitHalf 0, .splitHalf 1, .write 1 0 70, .write 0 1 80,
    .drop 0, .write 0 0 71, .drop 1, .drop 0] = some (m', []) ∧ (List.range 5).map m' = [0, 80, 71, 3, 4] :=
  ⟨_, rfl, by decide⟩

omit [Zero F] in
/-- **C39, partial.** Writing through a reborrowed handle (`to_owned_mut`, and with it `slice_mut` with an unbounded range,
`slice_power_of_two_mut` and the allocators of sub-scopes) is writing through the handle, if the handle is for whole
packed elements or for the first scalars of one.  `C39_reborrow_lost` shows that it is not otherwise. -/
theorem C39_reborrow_partial (w : Nat) (m : Nat → F) (v : View F)
    (h : ∀ owned len elem offset, v = .single owned len elem offset → offset = 0 ∧ len ≤ 2 ^ w) (i : Nat) (hi : i < v.handle.len) (x : F) :
    ∃ m' v', reborrowWrite w m v i x = some (m', v') ∧ m' = (writeView m v i x).1 ∧ v'.handle = v.handle ∧
      ∀ j < v.handle.len, readView m' v' j = if j = i then x else readView m v j := by
  cases v with
  | slice s l =>
    refine ⟨_, _, rfl, rfl, rfl, fun j hj => ?_⟩
    show Function.update m (s + i) x (s + j) = if j = i then x else m (s + j)
    by_cases hji : j = i
    · rw [hji, Function.update_self, if_pos rfl]
    · rw [Function.update_of_ne (by omega), if_neg hji]
  | single owned len e o =>
    obtain ⟨rfl, hv⟩ := h _ _ _ _ rfl
    have hc := copyBack_eq w (Function.update owned i x) 0 0 len 0 owned (by omega)
    refine ⟨m, .single (fun a => if 0 + 0 + 0 ≤ a ∧ a < 0 + 0 + 0 + len then Function.update owned i x (a - (0 + 0))
      else owned a) len e 0, by rw [reborrowWrite, hc, Option.bind_some], rfl, rfl, fun j hj => ?_⟩
    have hj : j < len := hj
    show (if _ then _ else _) = if j = i then x else owned j
    rw [if_pos (by omega), Nat.sub_zero]
    by_cases hji : j = i
    · rw [hji, Function.update_self, if_pos rfl]
    · rw [Function.update_of_ne hji, if_neg hji]

omit [Zero F] in
/-- **C39, negative.** For a handle for other scalars of a packed element the write goes to the wrong place: it is moved by
the offset of the handle, and lost for the second half of a packed element. -/
theorem C39_reborrow_lost (w : Nat) (m : Nat → F) (owned : Nat → F) (len elem offset i : Nat) (x : F)
    (hlen : offset + len ≤ 2 ^ w) (ho : len ≤ offset) :
    ∃ v', reborrowWrite w m (.single owned len elem offset) i x = some (m, v') ∧
      ∀ j < len, readView m v' j = owned j := by
  have hc := copyBack_eq w (Function.update owned i x) 0 offset len 0 owned (by omega)
  refine ⟨_, by rw [reborrowWrite, hc, Option.bind_some], fun j hj => ?_⟩
  show (if _ then _ else _) = owned j
  rw [if_neg (by omega)]

/-- The second half of a packed element is such a handle. -/
example : ∃ m' x o, runView 2 (fun a => (a : Int)) [.slice 0 4] [.splitHalf 0] = some (m', [x, .single o 2 0 2]) :=
  ⟨_, _, _, rfl⟩

end Verif.Compute
