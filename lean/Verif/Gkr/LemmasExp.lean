import Verif.Gkr.SpecExp
import Verif.Math.LemmasMle
import Verif.Math.LemmasArith
import Verif.Field.Tower
import Mathlib.FieldTheory.Finite.Basic
import Mathlib.Tactic.Ring
import Mathlib.Tactic.LinearCombination

/-! The layers of the exponentiation. -/

set_option linter.dupNamespace false
set_option linter.unusedSectionVars false

namespace Verif.Gkr

variable {F : Type} [Field F] [DecidableEq F]

/-- A layer of packed elements with the given scalars. -/
structure IsLayer (w n : Nat) (l : List (Packed F)) (f : Nat → F) : Prop where
  len : l.length = 2 ^ (n - w)
  val : ∀ v < 2 ^ n, value w l v = f v

theorem row_lt {w n v : Nat} (h : v < 2 ^ n) : v / 2 ^ w < 2 ^ (n - w) := by
  by_cases hw : w ≤ n
  · apply Nat.div_lt_of_lt_mul
    rw [← pow_add]
    rwa [show w + (n - w) = n by omega]
  · have : 2 ^ n ≤ 2 ^ w := Nat.pow_le_pow_right (by omega) (by omega)
    rw [Nat.div_eq_of_lt (by omega)]
    exact Nat.two_pow_pos _

theorem value_get {w v : Nat} {l : List (Packed F)} (h : v / 2 ^ w < l.length) :
    value w l v = l[v / 2 ^ w] (v % 2 ^ w) := by
  unfold value
  rw [List.getElem?_eq_getElem h]

/-- The power of one bit. -/
def bitPow (c : Column F) (g : F) (v : Nat) : F := if c.val v = 1 then g else 1

theorem factor (h2 : (2 : F) = 0) {n : Nat} {c : Column F} (hc : c.nVars = n) {v : Nat} (hv : v < 2 ^ n) (g : F) :
    1 + bitAt c v * (1 + g) = bitPow c g v := by
  unfold bitAt bitPow
  rw [hc, if_pos hv]
  split
  · linear_combination h2
  · ring

theorem mapM_spec {α β : Type} {f : α → Option β} : ∀ (l : List α), (∀ a ∈ l, ∃ b, f a = some b) →
    ∃ r, l.mapM f = some r ∧ r.length = l.length ∧
      ∀ i (h : i < l.length) (h' : i < r.length), f l[i] = some r[i]
  | [], _ => ⟨[], rfl, rfl, fun i h => absurd h (by simp)⟩
  | a :: l, h => by
    obtain ⟨b, hb⟩ := h a (by simp)
    obtain ⟨r, h1, h2, h3⟩ := mapM_spec l fun a ha => h a (by simp [ha])
    refine ⟨b :: r, by rw [List.mapM_cons, hb, h1]; rfl, by simp [h2], fun i hi hi' => ?_⟩
    cases i with
    | zero => exact hb
    | succ i => exact h3 i (by simpa using hi) (by simpa using hi')

theorem two_pow_split (w v : Nat) : 2 ^ w * (v / 2 ^ w) + v % 2 ^ w = v := Nat.div_add_mod v (2 ^ w)

/-- The base of a layer as a function of the row. -/
def Base.Is (w n : Nat) (base : Base F) (b : Nat → F) : Prop :=
  match base with
  | .static g => ∀ v, b v = g (v % 2 ^ w)
  | .dynamic evals => IsLayer w n evals b

theorem firstLayer_ok (h2 : (2 : F) = 0) {w n : Nat} {c : Column F} (hc : c.nVars = n) {base : Base F} {b : Nat → F}
    (hb : base.Is w n b) : ∃ l, firstLayer w c base = some l ∧ IsLayer w n l fun v => bitPow c (b v) v := by
  have h : ∀ i ∈ List.range (2 ^ (c.nVars - w)), ∃ p, firstElem w c base i = some p := fun i hi => by
    rw [hc, List.mem_range] at hi
    cases base with
    | static g => exact ⟨_, rfl⟩
    | dynamic evals =>
      have hi' : i < evals.length := by rw [IsLayer.len hb]; exact hi
      simp only [firstElem]
      exact ⟨_, by rw [List.getElem?_eq_getElem hi']; rfl⟩
  obtain ⟨l, h1, h3, h4⟩ := mapM_spec _ h
  have hl : l.length = 2 ^ (n - w) := by rw [h3, List.length_range, hc]
  refine ⟨l, h1, hl, fun v hv => ?_⟩
  have hr : v / 2 ^ w < l.length := by rw [hl]; exact row_lt hv
  have h5 := h4 (v / 2 ^ w) (by rw [h3] at hr; exact hr) hr
  rw [List.getElem_range] at h5
  rw [value_get hr, ← factor h2 hc hv]
  cases base with
  | static g =>
    injection h5 with h5
    rw [← h5]
    beta_reduce
    rw [two_pow_split, hb v]
  | dynamic evals =>
    have hr' : v / 2 ^ w < evals.length := by rw [IsLayer.len hb]; exact row_lt hv
    simp only [firstElem] at h5
    rw [List.getElem?_eq_getElem hr'] at h5
    injection h5 with h5
    rw [← h5]
    beta_reduce
    rw [two_pow_split, ← value_get hr', IsLayer.val hb v hv]

/-- What a later layer does with the layer before. -/
def stepVal (base : Base F) (a : F) : F :=
  match base with
  | .static _ => a
  | .dynamic _ => a ^ 2

theorem nextExpLayer_ok (h2 : (2 : F) = 0) {w n : Nat} {c : Column F} (hc : c.nVars = n) {base : Base F} {b : Nat → F}
    (hb : base.Is w n b) {prev : List (Packed F)} {a : Nat → F} (hp : IsLayer w n prev a) :
    ∃ l, nextExpLayer w c base prev = some l ∧ IsLayer w n l fun v => stepVal base (a v) * bitPow c (b v) v := by
  have hlz : prev.zipIdx.length = prev.length := by simp
  have h : ∀ p ∈ prev.zipIdx, ∃ q, nextElem w c base p = some q := fun p hmem => by
    cases base with
    | static g => exact ⟨_, rfl⟩
    | dynamic evals =>
      have hi : p.2 < evals.length := by
        rw [IsLayer.len hb, ← hp.len]
        obtain ⟨i, hi, e⟩ := List.getElem_of_mem hmem
        rw [← e]
        simp at hi ⊢
        exact hi
      simp only [nextElem]
      exact ⟨_, by rw [List.getElem?_eq_getElem hi]; rfl⟩
  obtain ⟨l, h1, h3, h4⟩ := mapM_spec _ h
  have hl : l.length = 2 ^ (n - w) := by rw [h3, hlz, hp.len]
  refine ⟨l, h1, hl, fun v hv => ?_⟩
  have hr : v / 2 ^ w < l.length := by rw [hl]; exact row_lt hv
  have hrp : v / 2 ^ w < prev.length := by rw [hp.len]; exact row_lt hv
  have h5 := h4 (v / 2 ^ w) (by rw [hlz]; exact hrp) hr
  rw [List.getElem_zipIdx, Nat.zero_add] at h5
  rw [value_get hr, ← factor h2 hc hv, ← hp.val v hv, value_get hrp]
  cases base with
  | static g =>
    injection h5 with h5
    rw [← h5]
    beta_reduce
    show _ * (1 + bitAt c (2 ^ w * (v / 2 ^ w) + v % 2 ^ w) * (1 + g (v % 2 ^ w))) = _
    rw [two_pow_split, hb v]
    rfl
  | dynamic evals =>
    have hr' : v / 2 ^ w < evals.length := by rw [IsLayer.len hb]; exact row_lt hv
    simp only [nextElem] at h5
    rw [List.getElem?_eq_getElem hr'] at h5
    injection h5 with h5
    rw [← h5]
    show _ * (1 + bitAt c (2 ^ w * (v / 2 ^ w) + v % 2 ^ w) * (1 + evals[v / 2 ^ w] (v % 2 ^ w))) = _
    rw [two_pow_split, ← value_get hr', IsLayer.val hb v hv]
    rfl

theorem bitPow_pow (c : Column F) (g : F) (v : Nat) : bitPow c g v = g ^ (if c.val v = 1 then 1 else 0) := by
  unfold bitPow
  split <;> simp

theorem staticLayers_ok (h2 : (2 : F) = 0) {w n : Nat} : ∀ (cs : List (Column F)) (p : F) (prev : List (Packed F))
    (a : Nat → F), (∀ c ∈ cs, c.nVars = n) → IsLayer w n prev a →
    ∃ l, staticLayers w cs (fun _ => p) prev = some l ∧ l.length = cs.length ∧
      ∀ k layer, l[k]? = some layer → IsLayer w n layer fun v => a v * (p ^ 2) ^ expNat (cs.take (k + 1)) v
  | [], p, prev, a, _, _ => ⟨[], rfl, rfl, fun k layer h => by simp at h⟩
  | c :: cs, p, prev, a, hc, hp => by
    obtain ⟨layer, h1, h3⟩ := nextExpLayer_ok h2 (hc c (by simp)) (base := .static fun _ => p ^ 2) (b := fun _ => p ^ 2)
      (fun _ => rfl) hp
    obtain ⟨l, h4, h5, h6⟩ := staticLayers_ok h2 cs (p ^ 2) layer _ (fun c h => hc c (by simp [h])) h3
    refine ⟨layer :: l, ?_, by simp [h5], fun k x hx => ?_⟩
    · show (nextExpLayer w c (.static fun _ => p ^ 2) prev).bind _ = _
      rw [h1, Option.bind_some, h4]
      rfl
    · cases k with
      | zero =>
        simp only [List.getElem?_cons_zero, Option.some.injEq] at hx
        rw [← hx]
        refine ⟨h3.len, fun v hv => ?_⟩
        rw [h3.val v hv, bitPow_pow]
        simp [expNat, stepVal]
      | succ k =>
        have h7 := h6 k x (by simpa using hx)
        refine ⟨h7.len, fun v hv => ?_⟩
        rw [h7.val v hv, bitPow_pow]
        show a v * _ * _ = _
        rw [List.take_succ_cons]
        show _ = _ * (p ^ 2) ^ (_ + 2 * expNat (cs.take (k + 1)) v)
        rw [pow_add, pow_mul (p ^ 2) 2]
        ring

theorem equalNVars_iff {n : Nat} : ∀ cs : List (Column F), equalNVars n cs = true ↔ ∀ c ∈ cs, c.nVars = n
  | [] => by simp [equalNVars]
  | c :: cs => by
    unfold equalNVars
    by_cases h : c.nVars = n
    · rw [if_neg (by simpa using h), equalNVars_iff cs]
      simp [h]
    · rw [if_pos h]
      simp [h]

/-- The exponent after more digits on the low side. -/
theorem expNat_append (a b : List (Column F)) (v : Nat) :
    expNat (a ++ b) v = expNat a v + 2 ^ a.length * expNat b v := by
  induction a with
  | nil => simp [expNat]
  | cons c a ih =>
    show _ + 2 * expNat (a ++ b) v = _ + 2 * expNat a v + _
    rw [ih, List.length_cons, pow_succ]
    ring

theorem dynamicLayers_ok (h2 : (2 : F) = 0) {w n : Nat} {evals : List (Packed F)} {b : Nat → F}
    (hb : IsLayer w n evals b) : ∀ (cs : List (Column F)) (prev : List (Packed F)) (hi : List (Column F)),
    (∀ c ∈ cs, c.nVars = n) → IsLayer w n prev (fun v => b v ^ expNat hi v) →
    ∃ l, dynamicLayers w (.dynamic evals) cs prev = some l ∧ l.length = cs.length ∧
      ∀ k layer, l[k]? = some layer →
        IsLayer w n layer fun v => b v ^ expNat ((cs.take (k + 1)).reverse ++ hi) v
  | [], prev, hi, _, _ => ⟨[], rfl, rfl, fun k layer h => by simp at h⟩
  | c :: cs, prev, hi, hc, hp => by
    obtain ⟨layer, h1, h3⟩ := nextExpLayer_ok h2 (hc c (by simp)) (base := .dynamic evals) (b := b) hb hp
    have h3' : IsLayer w n layer fun v => b v ^ expNat (c :: hi) v := ⟨h3.len, fun v hv => by
      rw [h3.val v hv, bitPow_pow]
      show (_ ^ _) ^ 2 * _ = _ ^ (_ + 2 * _)
      rw [pow_add, ← pow_mul, Nat.mul_comm 2, mul_comm]⟩
    obtain ⟨l, h4, h5, h6⟩ := dynamicLayers_ok h2 hb cs layer (c :: hi) (fun c h => hc c (by simp [h])) h3'
    refine ⟨layer :: l, ?_, by simp [h5], fun k x hx => ?_⟩
    · show (nextExpLayer w c (.dynamic evals) prev).bind _ = _
      rw [h1, Option.bind_some, h4]
      rfl
    · cases k with
      | zero =>
        simp only [List.getElem?_cons_zero, Option.some.injEq] at hx
        rw [← hx]
        simpa using h3'
      | succ k =>
        have h7 := h6 k x (by simpa using hx)
        simpa using h7

/-- A finite field with more than `q` elements has an element that `q` does not fix. -/
theorem exists_pow_ne {K : Type} [Field K] [Finite K] {q : Nat} (hq : 1 < q) (h : q < Nat.card K) :
    ∃ g : K, g ^ q ≠ g := by
  by_contra hn
  push Not at hn
  haveI := Fintype.ofFinite K
  classical
  have hne := FiniteField.X_pow_card_sub_X_ne_zero K hq
  have hle := Polynomial.card_roots' (Polynomial.X ^ q - Polynomial.X : Polynomial K)
  rw [FiniteField.X_pow_card_sub_X_natDegree_eq K hq] at hle
  have hsub : (Finset.univ : Finset K) ⊆ (Polynomial.X ^ q - Polynomial.X : Polynomial K).roots.toFinset := fun g _ => by
    rw [Multiset.mem_toFinset, Polynomial.mem_roots hne]
    simp [hn g]
  have h3 := Finset.card_le_card hsub
  have h4 := Multiset.toFinset_card_le (Polynomial.X ^ q - Polynomial.X : Polynomial K).roots
  rw [Finset.card_univ, ← Nat.card_eq_fintype_card] at h3
  omega

instance instFiniteT : (n : Nat) → Finite (Field.T n)
  | 0 => inferInstanceAs (Finite Bool)
  | n + 1 => by
    haveI : Finite (Field.T n) := instFiniteT n
    exact inferInstanceAs (Finite (Field.T n × Field.T n))

theorem card_tower : ∀ n, Nat.card (Field.T n) = 2 ^ 2 ^ n
  | 0 => by show Nat.card Bool = 2; simp
  | n + 1 => by
    show Nat.card (Field.T n × Field.T n) = _
    rw [Nat.card_prod, card_tower n, ← pow_add, pow_succ 2 n, mul_two]

end Verif.Gkr
