import Verif.Piop.ModelMerge
import Verif.Piop.SpecPiop
import Verif.Compute.LemmasMemory

/-! Lemmas on the writing of the committed message. -/

set_option linter.dupNamespace false

namespace Verif.Piop

open Verif Verif.Compute

section bits

theorem bitRev_lt : ∀ (n x : Nat), bitRev n x < 2 ^ n
  | 0, _ => by simp [bitRev]
  | n + 1, x => by
    have h := bitRev_lt n (x / 2)
    have h2 : x % 2 < 2 := Nat.mod_lt _ (by omega)
    have h3 : x % 2 * 2 ^ n ≤ 1 * 2 ^ n := Nat.mul_le_mul_right _ (by omega)
    rw [bitRev, Nat.pow_succ]; omega

theorem bitRev_succ : ∀ (n x : Nat), bitRev (n + 1) x = 2 * bitRev n x + x / 2 ^ n % 2
  | 0, x => by simp [bitRev]
  | n + 1, x => by
    rw [bitRev, bitRev_succ n (x / 2), bitRev, Nat.div_div_eq_div_mul, show 2 * 2 ^ n = 2 ^ (n + 1) by rw [Nat.pow_succ]; ring,
      Nat.pow_succ]
    ring

theorem bitRev_add (n : Nat) : ∀ (k x : Nat), bitRev (n + k) x = 2 ^ k * bitRev n x + bitRev k (x / 2 ^ n)
  | 0, x => by simp [bitRev]
  | k + 1, x => by
    rw [show n + (k + 1) = (n + k) + 1 by rfl, bitRev_succ, bitRev_add n k, bitRev_succ k, Nat.div_div_eq_div_mul, ← Nat.pow_add,
      Nat.pow_succ]
    ring

theorem reverseBits64_eq (x : Nat) : reverseBits64 x = bitRev 64 x := by
  have h : ∀ n, (List.range n).foldl (fun acc i => 2 * acc + x / 2 ^ i % 2) 0 = bitRev n x := by
    intro n
    induction n with
    | zero => rfl
    | succ n ih => rw [List.range_succ, List.foldl_append, ih, bitRev_succ]; rfl
  exact h 64

theorem reverseBits_eq {x n : Nat} (hn : n < 64) (hx : x < 2 ^ n) : reverseBits x n = bitRev n x := by
  rw [reverseBits, reverseBits64_eq]
  rcases Nat.eq_zero_or_pos n with rfl | h0
  · have : x = 0 := by simpa using hx
    subst this
    decide
  · rw [Nat.mod_eq_of_lt (by omega)]
    have h := bitRev_add n (64 - n) x
    rw [show n + (64 - n) = 64 by omega] at h
    rw [h, Nat.mul_add_div (Nat.two_pow_pos _), Nat.div_eq_of_lt (bitRev_lt _ _), Nat.add_zero]

theorem bitRev_mod : ∀ (n b r : Nat), bitRev n (b * 2 ^ n + r) = bitRev n r
  | 0, _, _ => rfl
  | n + 1, b, r => by
    have h1 : (b * 2 ^ (n + 1) + r) % 2 = r % 2 := by rw [Nat.pow_succ, ← Nat.mul_assoc]; omega
    have h2 : (b * 2 ^ (n + 1) + r) / 2 = b * 2 ^ n + r / 2 := by
      rw [Nat.pow_succ, ← Nat.mul_assoc]; omega
    rw [bitRev, bitRev, h1, h2, bitRev_mod n]

theorem bitRev_bitRev : ∀ (n x : Nat), x < 2 ^ n → bitRev n (bitRev n x) = x
  | 0, x, h => by simp [bitRev] at *; omega
  | n + 1, x, h => by
    have hr := bitRev_lt n (x / 2)
    have hx : x / 2 < 2 ^ n := by rw [Nat.pow_succ] at h; omega
    have e : bitRev (n + 1) x = x % 2 * 2 ^ n + bitRev n (x / 2) := rfl
    rw [bitRev_succ, e, bitRev_mod, bitRev_bitRev n _ hx, Nat.mul_comm (x % 2), Nat.mul_add_div (Nat.two_pow_pos n),
      Nat.div_eq_of_lt hr]
    omega

end bits

variable {F : Type}

theorem swap_inv {n off : Nat} {b : Slice F} (hn : n < 64) (hb : off + 2 ^ n ≤ b.size) :
    ∃ b', forRange (2 ^ n) (swapStep off n) b = some b' ∧ b'.size = b.size ∧
      (∀ k < 2 ^ n, b'.val (off + k) = b.val (off + bitRev n k)) ∧
      ∀ x, (x < off ∨ off + 2 ^ n ≤ x) → b'.val x = b.val x := by
  have main := forRange_inv (n := 2 ^ n) (s := b) (body := swapStep off n)
    (fun i c => c.size = b.size ∧
      (∀ k < 2 ^ n, c.val (off + k) = if min k (bitRev n k) < i then b.val (off + bitRev n k) else b.val (off + k)) ∧
      ∀ x, (x < off ∨ off + 2 ^ n ≤ x) → c.val x = b.val x)
    ⟨rfl, fun k _ => by rw [if_neg (by omega)], fun _ _ => rfl⟩
    (fun i hi c hc => by
      obtain ⟨h1, h2, h3⟩ := hc
      have hj := bitRev_lt n i
      have hjj := bitRev_bitRev n i hi
      have inj : ∀ k < 2 ^ n, bitRev n k = i → k = bitRev n i := fun k hk e => by rw [← e, bitRev_bitRev n k hk]
      unfold swapStep
      simp only [reverseBits_eq hn hi]
      by_cases hij : i < bitRev n i
      · rw [if_pos hij, Slice.get?_of_lt (by omega), Slice.get?_of_lt (by omega), Option.bind_some, Option.bind_some,
          Slice.set?_of_lt (by omega), Option.bind_some, Slice.set?_of_lt (by show off + bitRev n i < c.size; omega)]
        refine ⟨_, rfl, h1, fun k hk => ?_, fun x hx => ?_⟩
        · show (if off + k = off + bitRev n i then _ else if off + k = off + i then _ else c.val (off + k)) = _
          by_cases hk1 : k = bitRev n i
          · rw [if_pos (by omega), h2 i hi, if_neg (by omega), hk1, hjj, if_pos (by omega)]
          · rw [if_neg (by omega)]
            by_cases hk2 : k = i
            · rw [if_pos (by omega), h2 _ hj, hjj, if_neg (by omega), hk2, if_pos (by omega)]
            · rw [if_neg (by omega), h2 k hk]
              have hne : bitRev n k ≠ i := fun e => hk1 (inj k hk e)
              by_cases hlt : min k (bitRev n k) < i
              · rw [if_pos hlt, if_pos (by omega)]
              · rw [if_neg hlt, if_neg (by omega)]
        · show (if x = off + bitRev n i then _ else if x = off + i then _ else c.val x) = _
          rw [if_neg (by omega), if_neg (by omega), h3 x hx]
      · rw [if_neg hij]
        refine ⟨_, rfl, h1, fun k hk => ?_, h3⟩
        rw [h2 k hk]
        by_cases hlt : min k (bitRev n k) < i
        · rw [if_pos hlt, if_pos (by omega)]
        · rw [if_neg hlt]
          by_cases hlt' : min k (bitRev n k) < i + 1
          · rw [if_pos hlt']
            have hmin : min k (bitRev n k) = i := by omega
            rcases Nat.le_total k (bitRev n k) with hle | hle
            · rw [Nat.min_eq_left hle] at hmin
              subst hmin
              rw [show bitRev n k = k by omega]
            · rw [Nat.min_eq_right hle] at hmin
              have := inj k hk hmin
              rw [show bitRev n k = k by omega]
          · rw [if_neg hlt'])
  obtain ⟨b', e, h1, h2, h3⟩ := main
  refine ⟨b', e, h1, fun k hk => ?_, h3⟩
  rw [h2 k hk, if_pos (by omega)]

theorem reverseIndexBits_eq {n off : Nat} {b : Slice F} (hn : n < 64) (hb : off + 2 ^ n ≤ b.size) :
    ∃ b', reverseIndexBits off (2 ^ n) b = some b' ∧ b'.size = b.size ∧
      (∀ k < 2 ^ n, b'.val (off + k) = b.val (off + bitRev n k)) ∧
      ∀ x, (x < off ∨ off + 2 ^ n ≤ x) → b'.val x = b.val x := by
  rw [reverseIndexBits, strictLog2_eq.2 rfl, Option.bind_some]
  exact swap_inv hn hb

theorem fill_eq {len off : Nat} {b : Slice F} (t : Nat → F) (body : Nat → Slice F → Option (Slice F))
    (hbody : ∀ i < len, ∀ c, body i c = c.set? (off + i) (t i)) (hb : off + len ≤ b.size) :
    ∃ b', forRange len body b = some b' ∧ b'.size = b.size ∧
      (∀ k < len, b'.val (off + k) = t k) ∧ ∀ x, (x < off ∨ off + len ≤ x) → b'.val x = b.val x := by
  obtain ⟨b', e, h1, h2, h3⟩ := forRange_inv (n := len) (s := b) (body := body)
    (fun i c => c.size = b.size ∧ (∀ k < i, c.val (off + k) = t k) ∧ ∀ x, (x < off ∨ off + i ≤ x) → c.val x = b.val x)
    ⟨rfl, fun k hk => by omega, fun _ _ => rfl⟩
    (fun i hi c hc => by
      obtain ⟨h1, h2, h3⟩ := hc
      rw [hbody i hi, Slice.set?_of_lt (by omega)]
      refine ⟨_, rfl, h1, fun k hk => ?_, fun x hx => ?_⟩
      · show (if off + k = off + i then _ else c.val (off + k)) = _
        by_cases hk1 : k = i
        · rw [if_pos (by omega), hk1]
        · rw [if_neg (by omega), h2 k (by omega)]
      · show (if x = off + i then _ else c.val x) = _
        rw [if_neg (by omega), h3 x (by omega)])
  exact ⟨b', e, h1, h2, h3⟩

/-- One step of either loop. -/
def mergeStep (w : Nat) (m : PackedMle F) (s : Nat × Slice F) : Option (Nat × Slice F) :=
  if w ≤ m.nVars then mergeFull m s else mergeSmall w m s

/-- The number of packed evaluations is that of the variables. -/
def PackedMle.Valid (w : Nat) (m : PackedMle F) : Prop := m.evals.size = max (2 ^ m.nVars) (2 ^ w)

theorem Valid.large {w : Nat} {m : PackedMle F} (h : m.Valid w) (hw : w ≤ m.nVars) : m.evals.size = 2 ^ m.nVars := by
  rw [h, Nat.max_eq_left (Nat.pow_le_pow_right (by omega) hw)]

theorem Valid.small {w : Nat} {m : PackedMle F} (h : m.Valid w) (hw : m.nVars < w) : m.evals.size = 2 ^ w := by
  rw [h, Nat.max_eq_right (Nat.pow_le_pow_right (by omega) hw.le)]

theorem mergeStep_eq {w : Nat} {m : PackedMle F} (hv : m.Valid w) {off : Nat} {b : Slice F} (hb : off + 2 ^ m.nVars ≤ b.size)
    (h64 : b.size < 2 ^ 64) :
    ∃ b', mergeStep w m (off, b) = some (off + 2 ^ m.nVars, b') ∧ b'.size = b.size ∧
      (∀ k < 2 ^ m.nVars, b'.val (off + k) = m.evals.val (bitRev m.nVars k)) ∧
      ∀ x, (x < off ∨ off + 2 ^ m.nVars ≤ x) → b'.val x = b.val x := by
  have hn : m.nVars < 64 := (Nat.pow_lt_pow_iff_right (a := 2) (by omega)).1 (by omega)
  unfold mergeStep
  by_cases hw : w ≤ m.nVars
  · rw [if_pos hw, mergeFull, Valid.large hv hw]
    simp only [if_pos hb]
    obtain ⟨c, e1, e2, e3, e4⟩ := fill_eq (b := b) (len := 2 ^ m.nVars) (off := off) m.evals.val _ (fun i _ c => rfl) hb
    obtain ⟨d, f1, f2, f3, f4⟩ := reverseIndexBits_eq (b := c) (off := off) hn (by omega)
    rw [e1, Option.bind_some, f1, Option.bind_some]
    exact ⟨d, rfl, by omega, fun k hk => by rw [f3 k hk, e3 _ (bitRev_lt _ _)], fun x hx => by rw [f4 x hx, e4 x hx]⟩
  · have hw' : m.nVars < w := by omega
    have hp : 2 ^ m.nVars ≤ 2 ^ w := Nat.pow_le_pow_right (by omega) hw'.le
    rw [if_neg hw, mergeSmall, if_pos (Valid.small hv hw').ge]
    simp only [if_pos hb]
    obtain ⟨c, e1, e2, e3, e4⟩ := fill_eq (b := b) (len := 2 ^ m.nVars) (off := off) m.evals.val
      (fun i b => if i < 2 ^ w then b.set? (off + i) (m.evals.val i) else none) (fun i hi c => if_pos (by omega)) hb
    obtain ⟨d, f1, f2, f3, f4⟩ := reverseIndexBits_eq (b := c) (off := off) hn (by omega)
    rw [e1, Option.bind_some, f1, Option.bind_some]
    exact ⟨d, rfl, by omega, fun k hk => by rw [f3 k hk, e3 _ (bitRev_lt _ _)], fun x hx => by rw [f4 x hx, e4 x hx]⟩

theorem mergeStep_none {w : Nat} {m : PackedMle F} (hv : m.Valid w) {off : Nat} {b : Slice F}
    (hb : b.size < off + 2 ^ m.nVars) : mergeStep w m (off, b) = none := by
  unfold mergeStep
  by_cases hw : w ≤ m.nVars
  · rw [if_pos hw, mergeFull, Valid.large hv hw, if_neg (by simp only; omega)]
  · rw [if_neg hw, mergeSmall, if_pos (Valid.small hv (by omega)).ge]
    simp only
    rw [if_neg (by omega)]

theorem forEach_append {A S : Type} (body : A → S → Option S) (l l' : List A) (s : S) :
    forEach body (l ++ l') s = (forEach body l s).bind (forEach body l') := by
  induction l generalizing s with
  | nil => rfl
  | cons a l ih =>
    show (body a s).bind (forEach body (l ++ l')) = _
    rw [forEach, Option.bind_assoc]
    congr 1
    funext t
    exact ih t

theorem forEach_congr {A S : Type} {body body' : A → S → Option S} {l : List A} (h : ∀ a ∈ l, body a = body' a) (s : S) :
    forEach body l s = forEach body' l s := by
  induction l generalizing s with
  | nil => rfl
  | cons a l ih =>
    rw [forEach, forEach, h a (by simp)]
    congr 1
    funext t
    exact ih (fun a ha => h a (by simp [ha])) t

theorem takeWhile_large (w : Nat) : ∀ (l : List (PackedMle F)), (l.map PackedMle.nVars).Pairwise (· ≥ ·) →
    (∀ m ∈ l.takeWhile (fun m => decide (w ≤ m.nVars)), w ≤ m.nVars) ∧
    ∀ m ∈ l.dropWhile (fun m => decide (w ≤ m.nVars)), m.nVars < w
  | [], _ => by simp
  | m :: l, h => by
    rw [List.map_cons, List.pairwise_cons] at h
    by_cases hm : w ≤ m.nVars
    · have ih := takeWhile_large w l h.2
      rw [List.takeWhile_cons_of_pos (by simpa using hm), List.dropWhile_cons_of_pos (by simpa using hm)]
      refine ⟨fun m' hm' => ?_, ih.2⟩
      rcases List.mem_cons.1 hm' with rfl | h'
      · exact hm
      · exact ih.1 m' h'
    · rw [List.takeWhile_cons_of_neg (by simpa using hm), List.dropWhile_cons_of_neg (by simpa using hm)]
      refine ⟨by simp, fun m' hm' => ?_⟩
      rcases List.mem_cons.1 hm' with rfl | h'
      · omega
      · have := h.1 _ (List.mem_map_of_mem h')
        omega

theorem mergeMultilins_eq {w : Nat} {ms : List (PackedMle F)} (hs : (ms.map PackedMle.nVars).Pairwise (· ≤ ·))
    (b : Slice F) : mergeMultilins w ms b = (forEach (mergeStep w) ms.reverse (0, b)).map Prod.snd := by
  have hs' : (ms.reverse.map PackedMle.nVars).Pairwise (· ≥ ·) := by
    rw [List.map_reverse, List.pairwise_reverse]
    exact hs
  obtain ⟨h1, h2⟩ := takeWhile_large w _ hs'
  unfold mergeMultilins
  simp only
  rw [forEach_congr (body' := mergeStep w) (fun a ha => by funext s; rw [mergeStep, if_pos (h1 a ha)])]
  have e : ∀ s : Nat × Slice F, forEach (mergeSmall w) (ms.reverse.dropWhile fun m => decide (w ≤ m.nVars)) s =
      forEach (mergeStep w) (ms.reverse.dropWhile fun m => decide (w ≤ m.nVars)) s := fun s =>
    forEach_congr (fun a ha => by funext s; rw [mergeStep, if_neg (by have := h2 a ha; omega)]) s
  conv_rhs => rw [← List.takeWhile_append_dropWhile (p := fun m : PackedMle F => decide (w ≤ m.nVars)) (l := ms.reverse),
    forEach_append]
  rw [Option.map_bind]
  congr 1
  funext s
  rw [e]; rfl

variable [Field F]

theorem forEach_merge {w : Nat} : ∀ (ms : List (PackedMle F)) (_ : ∀ m ∈ ms, m.Valid w) (off : Nat) (b : Slice F),
    off + (ms.map fun m => 2 ^ m.nVars).sum ≤ b.size → b.size < 2 ^ 64 → (∀ x, off ≤ x → x < b.size → b.val x = 0) →
    ∃ off' b', forEach (mergeStep w) ms (off, b) = some (off', b') ∧ b'.size = b.size ∧ (∀ x < off, b'.val x = b.val x) ∧
      ∀ x, off + x < b.size →
        b'.val (off + x) = Piecewise.concat (ms.map fun m => (m.nVars, fun x => m.evals.val (bitRev m.nVars x))) x
  | [], _, off, b, _, _, hz => ⟨off, b, rfl, rfl, fun _ _ => rfl, fun x hx => by
      rw [hz _ (by omega) hx]; rfl⟩
  | m :: ms, hv, off, b, hb, h64, hz => by
    rw [List.map_cons, List.sum_cons] at hb
    have hp := Nat.two_pow_pos m.nVars
    obtain ⟨c, e1, e2, e3, e4⟩ := mergeStep_eq (hv m (by simp)) (off := off) (b := b) (by omega) h64
    obtain ⟨off', d, f1, f2, f3, f4⟩ := forEach_merge ms (fun m hm => hv m (by simp [hm])) (off + 2 ^ m.nVars) c (by omega) (by omega)
      (fun x hx hx' => by rw [e4 x (by omega), hz x (by omega) (by omega)])
    refine ⟨off', d, by rw [forEach, e1, Option.bind_some, f1], by omega, fun x hx => ?_, fun x hx => ?_⟩
    · rw [f3 x (by omega), e4 x (by omega)]
    · show _ = if x < 2 ^ m.nVars then _ else _
      by_cases hlt : x < 2 ^ m.nVars
      · rw [if_pos hlt, f3 _ (by omega), e3 x hlt]
      · rw [if_neg hlt, ← f4 (x - 2 ^ m.nVars) (by omega)]
        congr 1
        omega

omit [Field F] in
theorem forEach_merge_none {w : Nat} : ∀ (ms : List (PackedMle F)) (_ : ∀ m ∈ ms, m.Valid w) (off : Nat) (b : Slice F),
    b.size < off + (ms.map fun m => 2 ^ m.nVars).sum → off ≤ b.size → b.size < 2 ^ 64 →
    forEach (mergeStep w) ms (off, b) = none
  | [], _, off, b, hb, ho, _ => by simp at hb; omega
  | m :: ms, hv, off, b, hb, ho, h64 => by
    rw [List.map_cons, List.sum_cons] at hb
    by_cases h : off + 2 ^ m.nVars ≤ b.size
    · obtain ⟨c, e1, e2, -, -⟩ := mergeStep_eq (hv m (by simp)) (off := off) (b := b) h h64
      rw [forEach, e1, Option.bind_some]
      exact forEach_merge_none ms (fun m hm => hv m (by simp [hm])) _ c (by omega) (by omega) (by omega)
    · rw [forEach, mergeStep_none (hv m (by simp)) (by omega)]
      rfl

end Verif.Piop
