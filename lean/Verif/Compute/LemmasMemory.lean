import Verif.Compute.SpecMemory
import Mathlib.Tactic.Linarith
import Mathlib.Algebra.Order.Ring.Nat

/-! Lemmas on memory handles. -/

namespace Verif.Compute

theorem strictLog2_eq {n k : Nat} : strictLog2 n = some k ↔ n = 2 ^ k := by
  unfold strictLog2
  constructor
  · intro h
    split at h
    · rename_i hn
      injection h with h
      rw [← h]; exact hn
    · cases h
  · rintro rfl
    rw [Nat.log2_two_pow, if_pos rfl]

theorem strictLog2_none {n : Nat} : strictLog2 n = none ↔ ∀ k, n ≠ 2 ^ k := by
  constructor
  · intro h k hk
    rw [strictLog2_eq.2 hk] at h
    cases h
  · intro h
    cases e : strictLog2 n with
    | none => rfl
    | some k => exact absurd (strictLog2_eq.1 e) (h k)

theorem halve_single (w : Nat) : ∀ (j k s : Nat), j ≤ k → halve w j (.single s (2 ^ k)) = some (.single s (2 ^ (k - j)))
  | 0, _, _, _ => rfl
  | j + 1, k, s, h => by
    obtain ⟨k, rfl⟩ : ∃ k', k = k' + 1 := ⟨k - 1, by omega⟩
    have h1 : 1 < 2 ^ (k + 1) := Nat.one_lt_two_pow (by omega)
    have h2 : 2 ^ (k + 1) / 2 = 2 ^ k := by rw [pow_succ]; exact Nat.mul_div_cancel _ (by omega)
    rw [halve, splitHalfMut, if_pos ⟨by rw [show (Handle.single s (2 ^ (k + 1))).len = 2 ^ (k + 1) from rfl, strictLog2_eq.2 rfl]; rfl, h1⟩]
    rw [Option.bind_some, h2, halve_single w j k s (by omega), show k + 1 - (j + 1) = k - j by omega]

theorem halve_slice (w j s : Nat) (h : j ≤ w) : ∃ r, halve w j (.slice s (2 ^ w)) = some r ∧ r.start = s ∧
    r.len = 2 ^ (w - j) := by
  cases j with
  | zero => exact ⟨_, rfl, rfl, rfl⟩
  | succ j =>
    have h1 : 1 < 2 ^ w := Nat.one_lt_two_pow (by omega)
    have h2 : 2 ^ w / 2 = 2 ^ (w - 1) := by
      obtain ⟨w, rfl⟩ : ∃ w', w = w' + 1 := ⟨w - 1, by omega⟩
      rw [pow_succ]; exact Nat.mul_div_cancel _ (by omega)
    refine ⟨.single s (2 ^ (w - 1 - j)), ?_, rfl, by rw [show w - (j + 1) = w - 1 - j by omega]; rfl⟩
    rw [halve, splitHalfMut, if_pos ⟨by rw [show (Handle.slice s (2 ^ w)).len = 2 ^ w from rfl, strictLog2_eq.2 rfl]; rfl, h1⟩]
    dsimp only
    rw [Nat.div_self (by omega), if_neg (by omega), if_pos rfl, Option.bind_some, h2, halve_single w j (w - 1) s (by omega)]

/-- An allocation of a size that the buffer has. -/
theorem alloc_ok {w s l n : Nat} (hl : 2 ^ w ∣ l) (hn : 0 < n) (hle : n ≤ l) (hpre : 2 ^ w ∣ n ∨ ∃ k ≤ w, n = 2 ^ k) :
    max n (2 ^ w) ≤ l ∧ 2 ^ w ∣ max n (2 ^ w) ∧
    ∃ h, alloc w (.slice s l) n = .ok h (.slice (s + max n (2 ^ w)) (l - max n (2 ^ w))) ∧ h.start = s ∧ h.len = n := by
  have hp := Nat.two_pow_pos w
  have hlw : 2 ^ w ≤ l := Nat.le_of_dvd (by omega) hl
  have hmax : 2 ^ w ∣ max n (2 ^ w) := by
    rcases Nat.le_total (2 ^ w) n with h | h
    · rw [max_eq_left h]
      rcases hpre with h' | ⟨k, hk, rfl⟩
      · exact h'
      · have := (Nat.pow_le_pow_iff_right (by omega : 1 < 2)).1 h
        rw [show k = w by omega]
    · rw [max_eq_right h]
  have hml : max n (2 ^ w) ≤ l := max_le hle hlw
  refine ⟨hml, hmax, ?_⟩
  rw [alloc, if_neg (by simp only [Handle.len]; omega), splitAtMut, if_neg (by rw [Nat.mod_eq_zero_of_dvd hmax]; omega)]
  rw [if_pos (Nat.div_le_div_right hml)]
  dsimp only
  by_cases hlt : n < 2 ^ w
  · rw [if_pos hlt, max_eq_right hlt.le]
    obtain ⟨k, hk, rfl⟩ : ∃ k ≤ w, n = 2 ^ k := by
      rcases hpre with h' | h'
      · exact absurd (Nat.le_of_dvd hn h') (by omega)
      · exact h'
    rw [strictLog2_eq.2 rfl]
    dsimp only
    obtain ⟨r, h1, h2, h3⟩ := halve_slice w (w - k) s (by omega)
    rw [h1]
    exact ⟨r, rfl, h2, by rw [h3, show w - (w - k) = k by omega]⟩
  · rw [if_neg hlt, max_eq_left (by omega)]
    exact ⟨_, rfl, rfl, rfl⟩

/-- All other allocations from a slice that are not refused panic. -/
theorem alloc_panic {w s l n : Nat} (hle : n ≤ l) (hpre : n = 0 ∨ ¬ (2 ^ w ∣ n ∨ ∃ k ≤ w, n = 2 ^ k)) :
    alloc w (.slice s l) n = .panic := by
  have hp := Nat.two_pow_pos w
  rw [alloc, if_neg (by simp only [Handle.len]; omega), splitAtMut]
  by_cases hlt : n < 2 ^ w
  · rw [max_eq_right hlt.le, if_neg (by rw [Nat.mod_self]; omega)]
    split
    · rfl
    · rename_i lhs rhs _
      rw [if_pos hlt]
      have : strictLog2 n = none := by
        rw [strictLog2_none]
        rintro k rfl
        rcases hpre with h | h
        · exact absurd h (Nat.two_pow_pos k).ne'
        · exact h (Or.inr ⟨k, ((Nat.pow_lt_pow_iff_right (by omega)).1 hlt).le, rfl⟩)
      rw [this]
  · rw [max_eq_left (by omega), if_pos]
    rcases hpre with h | h
    · omega
    · intro hmod
      exact h (Or.inl (Nat.dvd_of_mod_eq_zero hmod))

/-! ### Histories of allocations -/

/-- The slices lie between two addresses, apart from each other, and account for all the memory in between. -/
structure Between (w : Nat) (live : List Handle) (lo hi : Nat) : Prop where
  apart : live.Pairwise Apart
  inside : ∀ h ∈ live, lo ≤ h.start ∧ h.start + h.len ≤ hi
  total : (live.map fun h => max h.len (2 ^ w)).sum + lo = hi

/-- The first address that the allocators in the list have not handed out. -/
def base : List Scope → Nat
  | [] => 0
  | s :: _ => s.buffer.start

/-- The invariant of the allocators. -/
def Inv (w L : Nat) : List Scope → Prop
  | [] => True
  | s :: ss => (∃ a, s.buffer = .slice a (L - a) ∧ a ≤ L ∧ 2 ^ w ∣ a ∧ Between w s.live (base ss) a) ∧ Inv w L ss

theorem Inv.base_le {w L : Nat} : ∀ {ss : List Scope}, Inv w L ss → base ss ≤ L
  | [], _ => Nat.zero_le _
  | _ :: _, ⟨⟨a, h1, h2, _⟩, _⟩ => by rw [base, h1]; exact h2

theorem step_inv {w L : Nat} (hL : 2 ^ w ∣ L) {ss ss' : List Scope} {op : Op} (h : Inv w L ss)
    (hs : step w ss op = some ss') : Inv w L ss' := by
  cases ss with
  | nil => cases hs
  | cons s ss =>
    obtain ⟨⟨a, h1, h2, h3, h4⟩, h5⟩ := h
    cases op with
    | alloc n =>
      rw [step, h1] at hs
      have hdvd : 2 ^ w ∣ L - a := Nat.dvd_sub hL h3
      by_cases hle : n ≤ L - a
      · by_cases hpre : n = 0 ∨ ¬ (2 ^ w ∣ n ∨ ∃ k ≤ w, n = 2 ^ k)
        · rw [alloc_panic hle hpre] at hs; cases hs
        · push Not at hpre
          obtain ⟨hn0, hpre⟩ := hpre
          obtain ⟨g1, g2, r, g3, g4, g5⟩ := alloc_ok (s := a) hdvd (Nat.pos_of_ne_zero hn0) hle hpre
          clear hpre
          rw [g3] at hs
          injection hs with hs
          subst hs
          refine ⟨⟨a + max n (2 ^ w), ?_, by omega, Nat.dvd_add h3 g2, ⟨?_, ?_, ?_⟩⟩, h5⟩
          · show Handle.slice _ _ = _
            rw [Nat.sub_sub]
          · refine List.pairwise_cons.2 ⟨fun r' hr' x hx => ?_, h4.apart⟩
            have := (h4.inside r' hr').2
            obtain ⟨⟨e1, e2⟩, e3, e4⟩ := hx
            omega
          · intro r' hr'
            rcases List.mem_cons.1 hr' with rfl | hr'
            · have hb : base ss ≤ a := by have := h4.total; omega
              rw [g4, g5]
              exact ⟨hb, by omega⟩
            · have := h4.inside r' hr'
              exact ⟨this.1, by omega⟩
          · rw [List.map_cons, List.sum_cons, g5]
            have := h4.total
            omega
      · rw [alloc, if_pos (by simp only [Handle.len]; omega)] at hs
        injection hs with hs
        subst hs
        exact ⟨⟨a, h1, h2, h3, h4⟩, h5⟩
    | enter =>
      rw [step] at hs
      injection hs with hs
      subst hs
      refine ⟨⟨a, h1, h2, h3, ⟨List.Pairwise.nil, by simp, ?_⟩⟩, ⟨a, h1, h2, h3, h4⟩, h5⟩
      simp [base, h1, Handle.start]
    | leave =>
      cases ss with
      | nil => cases hs
      | cons t ss =>
        rw [step] at hs
        injection hs with hs
        subst hs
        exact h5

theorem run_inv {w L : Nat} (hL : 2 ^ w ∣ L) : ∀ {ops : List Op} {ss ss' : List Scope}, Inv w L ss →
    run w ss ops = some ss' → Inv w L ss'
  | [], ss, ss', h, hr => by
    rw [run] at hr
    injection hr with hr
    exact hr ▸ h
  | op :: ops, ss, ss', h, hr => by
    rw [run] at hr
    cases hs : step w ss op with
    | none => rw [hs] at hr; cases hr
    | some t =>
      rw [hs, Option.bind_some] at hr
      exact run_inv hL (step_inv hL h hs) hr

theorem Inv.all {w L : Nat} : ∀ {ss : List Scope}, Inv w L ss →
    (ss.flatMap Scope.live).Pairwise Apart ∧ (∀ h ∈ ss.flatMap Scope.live, h.start + h.len ≤ base ss) ∧
    ((ss.flatMap Scope.live).map fun h => max h.len (2 ^ w)).sum = base ss
  | [], _ => ⟨List.Pairwise.nil, by simp, by simp [base]⟩
  | s :: ss, ⟨⟨a, h1, h2, h3, h4⟩, h5⟩ => by
    obtain ⟨i1, i2, i3⟩ := Inv.all h5
    have hb : base ss ≤ a := by have := h4.total; omega
    rw [List.flatMap_cons, base, h1]
    refine ⟨List.pairwise_append.2 ⟨h4.apart, i1, fun x hx y hy z hz => ?_⟩, fun h hh => ?_, ?_⟩
    · have e1 := (h4.inside x hx).1
      have e2 := i2 y hy
      obtain ⟨⟨f1, f2⟩, f3, f4⟩ := hz
      omega
    · rcases List.mem_append.1 hh with hh | hh
      · exact (h4.inside h hh).2
      · have := i2 h hh
        show _ ≤ a
        omega
    · rw [List.map_append, List.sum_append, i3]
      exact h4.total

end Verif.Compute
