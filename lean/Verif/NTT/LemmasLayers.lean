import Verif.NTT.LemmasNtt

/-! The loops of the single-threaded NTT perform layers on the flat sequence of scalars. -/

set_option linter.unusedSectionVars false

namespace Verif

theorem forRange_congr {S : Type*} {n : Nat} {f g : Nat → S → Option S} (h : ∀ i < n, ∀ s, f i s = g i s) (s : S) :
    forRange n f s = forRange n g s := by
  induction n with
  | zero => rfl
  | succ n ih =>
    rw [forRange, forRange, ih fun i hi => h i (by omega)]
    congr 1
    exact funext (h n (by omega))

theorem forRange_add {S : Type*} (m n : Nat) (f : Nat → S → Option S) (s : S) :
    forRange (m + n) f s = (forRange m f s).bind fun s => forRange n (fun j s => f (m + j) s) s := by
  induction n with
  | zero => simp [forRange]
  | succ n ih =>
    rw [← Nat.add_assoc, forRange, ih, Option.bind_assoc]
    rfl

theorem forRange_mul {S : Type*} (a b : Nat) (f : Nat → S → Option S) (s : S) :
    forRange a (fun i s => forRange b (fun j s => f (i * b + j) s) s) s = forRange (a * b) f s := by
  induction a with
  | zero => simp [forRange]
  | succ a ih => rw [forRange, ih, Nat.succ_mul, forRange_add]

theorem forRange_pairs {α : Type*} {n N : Nat} {body : Nat → Slice α → Option (Slice α)} (f : Nat → α → α → α × α)
    (i0 i1 : Nat → Nat)
    (h : ∀ q < N, ∀ d : Slice α, d.size = n → body q d = some ⟨n, pairStep (f q) (i0 q) (i1 q) d.val⟩)
    {d : Slice α} (hd : d.size = n) :
    forRange N body d = some ⟨n, pairLoop f i0 i1 (List.range N) d.val⟩ := by
  induction N with
  | zero => rw [forRange]; subst hd; rfl
  | succ N ih =>
    rw [forRange, ih fun q hq => h q (by omega), Option.bind_some, h N (by omega) _ rfl, List.range_succ]
    unfold pairLoop
    rw [List.foldl_append]
    rfl

/-- Insert a zero bit at position `B`. -/
def ins (B q : Nat) : Nat := q / 2 ^ B * 2 ^ (B + 1) + q % 2 ^ B

/-- Remove the bit at position `B`. -/
def del (B p : Nat) : Nat := p / 2 ^ (B + 1) * 2 ^ B + p % 2 ^ B

theorem ins_bits (B q : Nat) : ins B q / 2 ^ B % 2 = 0 ∧ ins B q / 2 ^ (B + 1) = q / 2 ^ B ∧
    ins B q % 2 ^ B = q % 2 ^ B := by
  have hB := Nat.two_pow_pos B
  have hm := Nat.mod_lt q hB
  unfold ins
  refine ⟨?_, ?_, ?_⟩
  · rw [Nat.pow_succ, Nat.mul_comm (2 ^ B) 2, ← Nat.mul_assoc, Nat.add_comm, Nat.add_mul_div_right _ _ hB,
      Nat.div_eq_of_lt hm]
    omega
  · rw [Nat.add_comm, Nat.add_mul_div_right _ _ (Nat.two_pow_pos _), Nat.div_eq_of_lt (by rw [Nat.pow_succ]; omega)]
    omega
  · rw [Nat.pow_succ, Nat.mul_comm (2 ^ B) 2, ← Nat.mul_assoc, Nat.add_comm, Nat.add_mul_mod_self_right, Nat.mod_mod]

theorem ins_inj {B q q' : Nat} (h : ins B q = ins B q') : q = q' := by
  obtain ⟨_, h1, h2⟩ := ins_bits B q
  obtain ⟨_, h3, h4⟩ := ins_bits B q'
  rw [h] at h1 h2
  rw [← Nat.div_add_mod q (2 ^ B), ← h1, ← h2, h3, h4, Nat.div_add_mod]

theorem ins_del {B p : Nat} (h : p / 2 ^ B % 2 = 0) : ins B (del B p) = p := by
  have hB := Nat.two_pow_pos B
  have hm := Nat.mod_lt p hB
  unfold ins del
  rw [Nat.add_comm (p / 2 ^ (B + 1) * 2 ^ B), Nat.add_mul_div_right _ _ hB, Nat.div_eq_of_lt hm, Nat.zero_add,
    Nat.add_mul_mod_self_right, Nat.mod_mod]
  have := Nat.div_add_mod' p (2 ^ (B + 1))
  rw [Nat.pow_succ, Nat.mod_mul, h, ← Nat.pow_succ] at this
  simpa using this

theorem del_add {B p : Nat} (h : p / 2 ^ B % 2 = 0) : del B (p + 2 ^ B) = del B p := by
  unfold del
  rw [(NTT.div_add_pow h).2, Nat.add_mod_right]

theorem disjointPairs_ins (B N : Nat) : DisjointPairs (ins B) (fun q => ins B q + 2 ^ B) (List.range N) := by
  have hB := Nat.two_pow_pos B
  have cross : ∀ q q', ins B q ≠ ins B q' + 2 ^ B := by
    intro q q' h
    have h1 := (ins_bits B q).1
    have h2 := (NTT.div_add_pow (ins_bits B q').1).1
    rw [h] at h1
    omega
  refine ⟨fun q _ => by omega, ?_⟩
  refine List.Pairwise.imp ?_ List.nodup_range
  intro q q' hne
  refine ⟨fun h => hne (ins_inj h), cross q q', fun h => cross q' q h.symm, fun h => hne (ins_inj (B := B) ?_)⟩
  omega

theorem pairLoop_ins {α : Type*} (f : Nat → α → α → α × α) (B M : Nat) (m : Nat → α) (p : Nat)
    (hp : p < M * 2 ^ (B + 1)) :
    pairLoop f (ins B) (fun q => ins B q + 2 ^ B) (List.range (M * 2 ^ B)) m p =
      if p / 2 ^ B % 2 = 0 then (f (del B p) (m p) (m (p + 2 ^ B))).1
      else (f (del B p) (m (p - 2 ^ B)) (m p)).2 := by
  have hB := Nat.two_pow_pos B
  have lt : ∀ p, p < M * 2 ^ (B + 1) → del B p < M * 2 ^ B := by
    intro p hp
    have h1 : p / 2 ^ (B + 1) < M := (Nat.div_lt_iff_lt_mul (Nat.two_pow_pos _)).2 hp
    have h2 := Nat.mod_lt p hB
    have h3 : (p / 2 ^ (B + 1) + 1) * 2 ^ B ≤ M * 2 ^ B := Nat.mul_le_mul_right _ h1
    rw [Nat.succ_mul] at h3
    unfold del
    omega
  split
  next h =>
    have := (pairLoop_of_mem f (ins B) (fun q => ins B q + 2 ^ B) _ m (disjointPairs_ins B (M * 2 ^ B)) (del B p)
      (List.mem_range.2 (lt p hp))).1
    rw [ins_del h] at this
    exact this
  next h =>
    obtain ⟨h1, h3, h4⟩ := NTT.div_sub_pow h
    have hd : del B p = del B (p - 2 ^ B) := by
      have := del_add h3
      rw [Nat.sub_add_cancel h1] at this
      exact this
    have := (pairLoop_of_mem f (ins B) (fun q => ins B q + 2 ^ B) _ m (disjointPairs_ins B (M * 2 ^ B))
      (del B (p - 2 ^ B)) (List.mem_range.2 (hd ▸ lt p hp))).2
    rw [ins_del h3, Nat.sub_add_cancel h1] at this
    rw [hd]
    exact this

end Verif

namespace Verif.NTT

open Finset Spec

variable {F : Type*} [Field F] [DecidableEq F]

/-- The forward butterfly. -/
def fwdOp (t u v : F) : F × F := (u + v * t, v + (u + v * t))

/-- The inverse butterfly. -/
def invOp (t u v : F) : F × F := (u + (v + u) * t, v + u)

/-- A layer with a butterfly. -/
def layer (op : F → F → F → F × F) (b : Nat) (t g : Nat → F) (p : Nat) : F :=
  if p / 2 ^ b % 2 = 0 then (op (t (p / 2 ^ (b + 1))) (g p) (g (p + 2 ^ b))).1
  else (op (t (p / 2 ^ (b + 1))) (g (p - 2 ^ b)) (g p)).2

theorem layer_fwd : layer (F := F) fwdOp = fwdLayer := rfl
theorem layer_inv : layer (F := F) invOp = invLayer := rfl

theorem get?_mk {α : Type*} {n i : Nat} {v : Nat → α} (h : i < n) : (Slice.mk n v).get? i = some (v i) := if_pos h

theorem set?_mk {α : Type*} {n i : Nat} {v : Nat → α} {x : α} (h : i < n) :
    (Slice.mk n v).set? i x = some ⟨n, fun j => if j = i then x else v j⟩ := if_pos h

theorem butterflyFwd_eq {t : F} {a b : Nat} {d : Slice (Lanes F)} (ha : a < d.size) (hb : b < d.size) (hab : a ≠ b) :
    butterflyFwd t a b d =
      some ⟨d.size, pairStep (fun x y => (fun l => (fwdOp t (x l) (y l)).1, fun l => (fwdOp t (x l) (y l)).2)) a b d.val⟩ := by
  unfold butterflyFwd
  rw [Slice.get?_of_lt hb, Option.bind_some, Slice.get?_of_lt ha, Option.bind_some, Slice.set?_of_lt ha,
    Option.bind_some, get?_mk ha, Option.bind_some, get?_mk hb, Option.bind_some, set?_mk hb]
  simp only [if_true, if_neg hab.symm, pairStep, fwdOp]

theorem butterflyInv_eq {t : F} {a b : Nat} {d : Slice (Lanes F)} (ha : a < d.size) (hb : b < d.size) (hab : a ≠ b) :
    butterflyInv t a b d =
      some ⟨d.size, pairStep (fun x y => (fun l => (invOp t (x l) (y l)).1, fun l => (invOp t (x l) (y l)).2)) a b d.val⟩ := by
  unfold butterflyInv
  rw [Slice.get?_of_lt ha, Option.bind_some, Slice.get?_of_lt hb, Option.bind_some, Slice.set?_of_lt hb,
    Option.bind_some, get?_mk hb, Option.bind_some, get?_mk ha, Option.bind_some, set?_mk ha]
  simp only [if_true, if_neg hab, pairStep, invOp]
  congr 2
  funext e
  by_cases h1 : e = a
  · subst h1; simp [hab]
  · simp [h1]

/-- The two interleaves around the butterfly. -/
def packedOp (op : F → F → F → F × F) (b : Nat) (tw x y : Lanes F) : Lanes F × Lanes F :=
  (fun l => if l / 2 ^ b % 2 = 0 then (op (tw l) (x l) (x (l + 2 ^ b))).1
    else (op (tw (l - 2 ^ b)) (x (l - 2 ^ b)) (x l)).2,
   fun l => if l / 2 ^ b % 2 = 0 then (op (tw (l + 2 ^ b)) (y l) (y (l + 2 ^ b))).1
    else (op (tw l) (y (l - 2 ^ b)) (y l)).2)

theorem testBit_of_mod {l b : Nat} : l.testBit b = decide (¬ l / 2 ^ b % 2 = 0) := by
  rw [Nat.testBit_eq_decide_div_mod_eq]
  congr 1
  apply propext
  omega

theorem packed_aux (op : F → F → F → F × F) {w b : Nat} (hb : b < w) (tw x y : Lanes F) :
    ((interleave w b x y).bind fun uv => interleave w b (fun l => (op (tw l) (uv.1 l) (uv.2 l)).1)
      (fun l => (op (tw l) (uv.1 l) (uv.2 l)).2)) = some (packedOp op b tw x y) := by
  unfold interleave
  simp only [if_pos hb, Option.bind_some]
  congr 2
  · funext l
    by_cases h : l / 2 ^ b % 2 = 0
    · simp [testBit_of_mod, h]
    · obtain ⟨h1, h2, h3⟩ := div_sub_pow h
      have h0 : l / 2 ^ b % 2 = 1 := by omega
      simp [testBit_of_mod, h2, h0, Nat.sub_add_cancel h1]
  · funext l
    by_cases h : l / 2 ^ b % 2 = 0
    · have h1 := (div_add_pow h).1
      have t1 : (l + 2 ^ b).testBit b = true := by rw [testBit_of_mod, h1]; rfl
      simp [h, t1, testBit_of_mod (l := l)]
    · obtain ⟨h1, h2, h3⟩ := div_sub_pow h
      have h0 : l / 2 ^ b % 2 = 1 := by omega
      simp [testBit_of_mod, h0]

theorem packedFwd_eq {w b : Nat} (hb : b < w) (tw : Lanes F) {index : Nat} {d : Slice (Lanes F)}
    (he : index % 2 = 0) (h1 : index + 1 < d.size) :
    packedFwd w b tw index d = some ⟨d.size, pairStep (packedOp fwdOp b tw) index (index + 1) d.val⟩ := by
  have hor : index ||| 1 = index + 1 := by
    have := Nat.two_pow_add_eq_or_of_lt (i := 1) (b := 1) (by omega) (index / 2)
    rw [Nat.pow_one, show 2 * (index / 2) = index by omega] at this
    exact this.symm
  unfold packedFwd
  rw [hor, Slice.get?_of_lt (by omega), Option.bind_some, Slice.get?_of_lt h1, Option.bind_some]
  have h := packed_aux fwdOp hb tw (d.val index) (d.val (index + 1))
  cases hi : interleave w b (d.val index) (d.val (index + 1)) with
  | none => rw [hi] at h; cases h
  | some uv =>
    rw [hi, Option.bind_some] at h
    rw [Option.bind_some]
    refine Eq.trans (congrArg (fun o => Option.bind o _) h) ?_
    rw [Option.bind_some, Slice.set?_of_lt (show index < d.size by omega), Option.bind_some, set?_mk h1]
    rfl

theorem packedInv_eq {w b : Nat} (hb : b < w) (tw : Lanes F) {index : Nat} {d : Slice (Lanes F)}
    (he : index % 2 = 0) (h1 : index + 1 < d.size) :
    packedInv w b tw index d = some ⟨d.size, pairStep (packedOp invOp b tw) index (index + 1) d.val⟩ := by
  have hor : index ||| 1 = index + 1 := by
    have := Nat.two_pow_add_eq_or_of_lt (i := 1) (b := 1) (by omega) (index / 2)
    rw [Nat.pow_one, show 2 * (index / 2) = index by omega] at this
    exact this.symm
  unfold packedInv
  rw [hor, Slice.get?_of_lt (by omega), Option.bind_some, Slice.get?_of_lt h1, Option.bind_some]
  have h := packed_aux invOp hb tw (d.val index) (d.val (index + 1))
  cases hi : interleave w b (d.val index) (d.val (index + 1)) with
  | none => rw [hi] at h; cases h
  | some uv =>
    rw [hi, Option.bind_some] at h
    rw [Option.bind_some]
    refine Eq.trans (congrArg (fun o => Option.bind o _) h) ?_
    rw [Option.bind_some, Slice.set?_of_lt (show index < d.size by omega), Option.bind_some, set?_mk h1]
    rfl

theorem shl_or {a b c : Nat} (h : b < 2 ^ c) : (a <<< c) ||| b = a * 2 ^ c + b := by
  rw [Nat.shiftLeft_eq, Nat.mul_comm, Nat.two_pow_add_eq_or_of_lt h]

/-! ### Upper layers -/

theorem upperLayer_eq (h2 : (1 : F) + 1 = 0) {bf : F → Nat → Nat → Slice (Lanes F) → Option (Slice (Lanes F))}
    {op : F → F → F → F × F}
    (hbf : ∀ t a b (d : Slice (Lanes F)), a < d.size → b < d.size → a ≠ b → bf t a b d = some ⟨d.size,
      pairStep (fun x y => (fun l => (op t (x l) (y l)).1, fun l => (op t (x l) (y l)).2)) a b d.val⟩)
    {w : Nat} {tas : List (TA F)} {γ : List F} (hr : Ready tas γ) {lx ly lz coset cb i : Nat}
    (hγ : γ.length = ly + cb) (hc : coset < 2 ^ cb) (hi : i < ly) (hw : w ≤ lx + i) {d : Slice (Lanes F)}
    (hd : d.size = 2 ^ (lx + ly + lz - w)) :
    ∃ d', upperLayer bf w tas ⟨lx, ly, lz⟩ coset i d = some d' ∧ d'.size = d.size ∧
      ∀ p < 2 ^ (lx + ly + lz), flat w d' p = layer op (lx + i) (twid γ ly coset i) (flat w d) p := by
  obtain ⟨t, ht, _, hget, _⟩ := hr.twiddle h2 (show i < γ.length by omega)
  obtain ⟨B, hB⟩ : ∃ B, B = lx + i - w := ⟨_, rfl⟩
  have hBp := Nat.two_pow_pos B
  let tw : Nat → F := fun k => normPoly γ i (point γ ((coset * 2 ^ (ly - 1 - i) + k) * 2 ^ (i + 1)))
  have hN : 2 ^ lz * 2 ^ (ly - 1 - i) * 2 ^ (B + 1) = 2 ^ (lx + ly + lz - w) := by
    rw [← Nat.pow_add, ← Nat.pow_add]; congr 1; omega
  have e1 : upperLayer bf w tas ⟨lx, ly, lz⟩ coset i d =
      forRange (2 ^ lz * 2 ^ (ly - 1 - i) * 2 ^ B) (fun q d =>
        bf (tw (q / 2 ^ B % 2 ^ (ly - 1 - i))) (ins B q) (ins B q + 2 ^ B) d) d := by
    unfold upperLayer
    rw [ht, Option.bind_some, ← forRange_mul, ← forRange_mul]
    refine forRange_congr (fun j hj d => ?_) d
    refine forRange_congr (fun k hk d => ?_) d
    have hk : k < 2 ^ (ly - 1 - i) := hk
    have hk' : coset * 2 ^ (ly - 1 - i) + k < 2 ^ (γ.length - 1 - i) := by
      have : (coset + 1) * 2 ^ (ly - 1 - i) ≤ 2 ^ cb * 2 ^ (ly - 1 - i) := Nat.mul_le_mul_right _ hc
      rw [Nat.succ_mul, ← Nat.pow_add, show cb + (ly - 1 - i) = γ.length - 1 - i by omega] at this
      omega
    dsimp only
    rw [shl_or hk, hget _ hk', Option.bind_some, show i + lx - w = B by omega]
    refine forRange_congr (fun l hl d => ?_) d
    have q1 : ((j * 2 ^ (ly - 1 - i) + k) * 2 ^ B + l) / 2 ^ B = j * 2 ^ (ly - 1 - i) + k := by
      rw [Nat.add_comm, Nat.add_mul_div_right _ _ hBp, Nat.div_eq_of_lt hl, Nat.zero_add]
    have q2 : ((j * 2 ^ (ly - 1 - i) + k) * 2 ^ B + l) % 2 ^ B = l := by
      rw [Nat.add_comm, Nat.add_mul_mod_self_right, Nat.mod_eq_of_lt hl]
    have q3 : (j * 2 ^ (ly - 1 - i) + k) % 2 ^ (ly - 1 - i) = k := by
      rw [Nat.add_comm, Nat.add_mul_mod_self_right, Nat.mod_eq_of_lt hk]
    have hidx : (j <<< (lx + ly - w)) ||| (k <<< (lx + i + 1 - w)) ||| l =
        ins B ((j * 2 ^ (ly - 1 - i) + k) * 2 ^ B + l) := by
      unfold ins
      rw [q1, q2, show lx + i + 1 - w = B + 1 by omega, show lx + ly - w = (ly - 1 - i) + (B + 1) by omega,
        Nat.shiftLeft_add, ← Nat.shiftLeft_or_distrib, shl_or hk, shl_or (by rw [Nat.pow_succ]; omega)]
    rw [hidx, q1, q3]
    have hor : ins B ((j * 2 ^ (ly - 1 - i) + k) * 2 ^ B + l) ||| (1 <<< (lx + i - w)) =
        ins B ((j * 2 ^ (ly - 1 - i) + k) * 2 ^ B + l) + 2 ^ B := by
      rw [← hB, Nat.one_shiftLeft]
      obtain ⟨b1, b2, b3⟩ := ins_bits B ((j * 2 ^ (ly - 1 - i) + k) * 2 ^ B + l)
      unfold ins
      rw [q1, q2]
      rw [show (j * 2 ^ (ly - 1 - i) + k) * 2 ^ (B + 1) + l + 2 ^ B =
        (j * 2 ^ (ly - 1 - i) + k) * 2 ^ (B + 1) + (1 * 2 ^ B + l) by ring, ← shl_or hl,
        ← shl_or (show l < 2 ^ (B + 1) by rw [Nat.pow_succ]; omega),
        ← shl_or (show (1 <<< B ||| l) < 2 ^ (B + 1) by rw [shl_or hl, Nat.pow_succ]; omega)]
      rw [Nat.or_assoc, Nat.one_shiftLeft, Nat.or_comm l]
    rw [hor]
  rw [e1, forRange_pairs (fun q x y => (fun l => (op (tw (q / 2 ^ B % 2 ^ (ly - 1 - i))) (x l) (y l)).1,
    fun l => (op (tw (q / 2 ^ B % 2 ^ (ly - 1 - i))) (x l) (y l)).2)) (ins B) (fun q => ins B q + 2 ^ B) ?_ rfl]
  · refine ⟨_, rfl, rfl, fun p hp => ?_⟩
    unfold flat
    dsimp only
    have hb : p / 2 ^ w / 2 ^ B = p / 2 ^ (lx + i) := by
      rw [Nat.div_div_eq_div_mul, ← Nat.pow_add]; congr 2; omega
    have hb' : p / 2 ^ w / 2 ^ (B + 1) = p / 2 ^ (lx + i + 1) := by
      rw [Nat.div_div_eq_div_mul, ← Nat.pow_add]; congr 2; omega
    have hlt : p / 2 ^ w < 2 ^ lz * 2 ^ (ly - 1 - i) * 2 ^ (B + 1) := by
      rw [hN, Nat.div_lt_iff_lt_mul (Nat.two_pow_pos w), ← Nat.pow_add,
        show lx + ly + lz - w + w = lx + ly + lz by omega]
      exact hp
    have hdel : del B (p / 2 ^ w) / 2 ^ B = p / 2 ^ (lx + i + 1) := by
      unfold del
      rw [Nat.add_comm, Nat.add_mul_div_right _ _ hBp, Nat.div_eq_of_lt (Nat.mod_lt _ hBp), hb', Nat.zero_add]
    have hpw : 2 ^ (lx + i) = 2 ^ B * 2 ^ w := by rw [← Nat.pow_add]; congr 1; omega
    rw [pairLoop_ins _ _ _ _ _ hlt]
    unfold layer
    dsimp only
    rw [hb]
    by_cases h0 : p / 2 ^ (lx + i) % 2 = 0
    · rw [if_pos h0, if_pos h0, hdel]
      rw [hpw, Nat.add_mul_div_right _ _ (Nat.two_pow_pos w), Nat.add_mul_mod_self_right]
      rfl
    · rw [if_neg h0, if_neg h0, hdel]
      obtain ⟨h1, _, _⟩ := div_sub_pow h0
      have s1 : (p - 2 ^ (lx + i)) / 2 ^ w = p / 2 ^ w - 2 ^ B := by
        have := Nat.add_mul_div_right (p - 2 ^ (lx + i)) (2 ^ B) (Nat.two_pow_pos w)
        rw [← hpw, Nat.sub_add_cancel h1] at this
        exact Nat.eq_sub_of_add_eq this.symm
      have s2 : (p - 2 ^ (lx + i)) % 2 ^ w = p % 2 ^ w := by
        conv_rhs => rw [← Nat.sub_add_cancel h1, hpw, Nat.add_mul_mod_self_right]
        rw [hpw]
      rw [s1, s2]
      rfl
  · intro q hq d' hd'
    have hlt : ins B q + 2 ^ B < d'.size := by
      rw [hd', hd, ← hN]
      unfold ins
      have a1 : q / 2 ^ B < 2 ^ lz * 2 ^ (ly - 1 - i) := (Nat.div_lt_iff_lt_mul hBp).2 hq
      have a2 : (q / 2 ^ B + 1) * 2 ^ (B + 1) ≤ 2 ^ lz * 2 ^ (ly - 1 - i) * 2 ^ (B + 1) := Nat.mul_le_mul_right _ a1
      have a3 := Nat.mod_lt q hBp
      rw [Nat.succ_mul, Nat.pow_succ] at a2
      rw [Nat.pow_succ]
      omega
    rw [hbf _ _ _ _ (by omega) hlt (by omega), hd']

/-! ### Lower layers -/

theorem forRange_pairs' {α : Type*} {N : Nat} {body : Nat → (Nat → α) → Option (Nat → α)}
    (f : Nat → α → α → α × α) (i0 i1 : Nat → Nat)
    (h : ∀ q < N, ∀ m, body q m = some (pairStep (f q) (i0 q) (i1 q) m)) (m : Nat → α) :
    forRange N body m = some (pairLoop f i0 i1 (List.range N) m) := by
  induction N with
  | zero => rfl
  | succ N ih =>
    rw [forRange, ih fun q hq => h q (by omega), Option.bind_some, h N (by omega), List.range_succ]
    unfold pairLoop
    rw [List.foldl_append]
    rfl

/-- The twiddle with index `m` of a layer. -/
def rawTwid (γ : List F) (i m : Nat) : F := normPoly γ i (point γ (m * 2 ^ (i + 1)))

theorem rawTwid_add (h2 : (1 : F) + 1 = 0) {γ : List F} {i c a : Nat} (hi : i < γ.length) (hm : a < 2 ^ c) (k : Nat) :
    rawTwid γ i (k * 2 ^ c) + rawTwid γ i a = rawTwid γ i (k * 2 ^ c + a) := by
  unfold rawTwid
  rw [← normPoly_add h2 (by omega), ← point_xor h2]
  congr 2
  rw [← shl_or hm, ← Nat.shiftLeft_eq k, ← Nat.shiftLeft_eq, ← Nat.shiftLeft_eq, ← Nat.shiftLeft_eq,
    ← Nat.shiftLeft_xor_distrib]
  congr 1
  refine Nat.eq_of_testBit_eq fun n => ?_
  rw [Nat.testBit_xor, Nat.testBit_or, Nat.testBit_shiftLeft]
  by_cases hn : c ≤ n
  · rw [Nat.testBit_lt_two_pow (lt_of_lt_of_le hm (Nat.pow_le_pow_right (by omega) hn))]
    simp
  · simp [hn]

theorem packedAdditiveTwiddle_eq {w lx ly lz i : Nat} {γ : List F} {t : TA F} (hi : i < ly) (hb : lx + i < w)
    (hl : ly ≤ γ.length)
    (hget : ∀ m, m < 2 ^ (γ.length - 1 - i) → t.get m = some (rawTwid γ i m))
    (hpair : ∀ b m, b < γ.length - 1 - i → m < 2 ^ b →
      t.getPair b m = some (rawTwid γ i m, rawTwid γ i (2 ^ b + m))) :
    ∃ bt, packedAdditiveTwiddle w t ⟨lx, ly, lz⟩ i = some bt ∧ ∀ l < 2 ^ min (lx + ly + lz) w,
      bt l = if lx + ly ≤ w then rawTwid γ i (l / 2 ^ (lx + i + 1) % 2 ^ (ly - 1 - i))
        else rawTwid γ i (l / 2 ^ (lx + i) % 2 * 2 ^ (w - (lx + i) - 1) + l / 2 ^ (lx + i + 1)) := by
  obtain ⟨b, hbe⟩ : ∃ b, b = lx + i := ⟨_, rfl⟩
  have hbp := Nat.two_pow_pos b
  obtain ⟨st, hst⟩ : ∃ st, st = min w (lx + ly) - b - 1 := ⟨_, rfl⟩
  let p : Nat → F × F := fun j => if lx + ly ≤ w then (rawTwid γ i j, rawTwid γ i j)
    else (rawTwid γ i j, rawTwid γ i (2 ^ st + j))
  have hpll : min (lx + ly + lz) w - (b + 1) + (b + 1) = min (lx + ly + lz) w := by omega
  have e : packedAdditiveTwiddle w t ⟨lx, ly, lz⟩ i =
      forRange (2 ^ (min (lx + ly + lz) w - (b + 1)) * 2 ^ b) (fun q tw =>
        some (pairStep (fun _ _ => p (q / 2 ^ b % 2 ^ st)) (ins b q) (ins b q + 2 ^ b) tw)) (fun _ => 0) := by
    unfold packedAdditiveTwiddle
    dsimp only
    rw [show i + lx = b by omega, if_neg (show ¬ min (lx + ly + lz) w < min (lx + ly + lz) w - (lx + ly) + lx by omega),
      if_neg (show ¬ min (lx + ly + lz) w - (b + 1) < min (lx + ly + lz) w - (lx + ly) by omega),
      show min (w - lx) (min (lx + ly + lz) w - (b + 1) - (min (lx + ly + lz) w - (lx + ly))) = st by omega,
      show 2 ^ (min (lx + ly + lz) w - (b + 1)) = 2 ^ (min (lx + ly + lz) w - (b + 1) - st) * 2 ^ st by
        rw [← Nat.pow_add]; congr 1; omega, ← forRange_mul, ← forRange_mul]
    refine forRange_congr (fun I hI tw => ?_) _
    refine forRange_congr (fun J hJ tw => ?_) _
    have hp : (if min (lx + ly + lz) w - (min (lx + ly + lz) w - (lx + ly)) - lx = ly then
        (t.get J).map fun a => (a, a) else t.getPair st J) = some (p J) := by
      by_cases hc : lx + ly ≤ w
      · rw [if_pos (by omega), hget J (lt_of_lt_of_le hJ (Nat.pow_le_pow_right (by omega) (by omega)))]
        simp only [p, if_pos hc, Option.map_some]
      · rw [if_neg (by omega), hpair st J (by omega) hJ]
        simp only [p, if_neg hc]
    rw [hp, Option.bind_some]
    refine forRange_congr (fun K hK tw => ?_) _
    have q1 : ((I * 2 ^ st + J) * 2 ^ b + K) / 2 ^ b = I * 2 ^ st + J := by
      rw [Nat.add_comm, Nat.add_mul_div_right _ _ hbp, Nat.div_eq_of_lt hK, Nat.zero_add]
    have q2 : ((I * 2 ^ st + J) * 2 ^ b + K) % 2 ^ b = K := by
      rw [Nat.add_comm, Nat.add_mul_mod_self_right, Nat.mod_eq_of_lt hK]
    have q3 : (I * 2 ^ st + J) % 2 ^ st = J := by
      rw [Nat.add_comm, Nat.add_mul_mod_self_right, Nat.mod_eq_of_lt hJ]
    have hx0 : (J <<< (b + 1)) ||| (I <<< (b + st + 1)) = (I * 2 ^ st + J) <<< (b + 1) := by
      rw [← shl_or hJ, Nat.shiftLeft_or_distrib, ← Nat.shiftLeft_add, Nat.or_comm,
        show b + st + 1 = st + (b + 1) by omega]
    have hK' : K < 2 ^ (b + 1) := by rw [Nat.pow_succ]; omega
    have hi0 : (J <<< (b + 1)) ||| (I <<< (b + st + 1)) ||| K = ins b ((I * 2 ^ st + J) * 2 ^ b + K) := by
      rw [hx0, shl_or hK']
      unfold ins
      rw [q1, q2]
    have hi1 : (J <<< (b + 1)) ||| (I <<< (b + st + 1)) ||| (1 <<< b) ||| K =
        ins b ((I * 2 ^ st + J) * 2 ^ b + K) + 2 ^ b := by
      rw [hx0, Nat.or_assoc, shl_or hK, shl_or (by rw [Nat.pow_succ]; omega)]
      unfold ins
      rw [q1, q2]
      omega
    have hlt : ins b ((I * 2 ^ st + J) * 2 ^ b + K) + 2 ^ b < 2 ^ w := by
      unfold ins
      rw [q1, q2]
      have a1 : (I + 1) * 2 ^ st ≤ 2 ^ (min (lx + ly + lz) w - (b + 1) - st) * 2 ^ st := Nat.mul_le_mul_right _ hI
      rw [Nat.succ_mul] at a1
      have a2 : (I * 2 ^ st + J + 1) * 2 ^ (b + 1) ≤
          2 ^ (min (lx + ly + lz) w - (b + 1) - st) * 2 ^ st * 2 ^ (b + 1) := Nat.mul_le_mul_right _ (by omega)
      rw [← Nat.pow_add, ← Nat.pow_add, Nat.succ_mul] at a2
      have a3 : 2 ^ (min (lx + ly + lz) w - (b + 1) - st + st + (b + 1)) ≤ 2 ^ w :=
        Nat.pow_le_pow_right (by omega) (by omega)
      have a4 : 2 ^ (b + 1) = 2 ^ b + 2 ^ b := by rw [Nat.pow_succ]; omega
      omega
    rw [hi0, hi1, if_pos ⟨by omega, hlt⟩, q1, q3]
    rfl
  rw [e, forRange_pairs' (fun q _ _ => p (q / 2 ^ b % 2 ^ st)) (ins b) (fun q => ins b q + 2 ^ b) fun q _ m => rfl]
  refine ⟨_, rfl, fun l hl => ?_⟩
  rw [pairLoop_ins _ _ _ _ _ (by rw [← Nat.pow_add, hpll]; exact hl)]
  have hdel : del b l / 2 ^ b = l / 2 ^ (b + 1) := by
    unfold del
    rw [Nat.add_comm, Nat.add_mul_div_right _ _ hbp, Nat.div_eq_of_lt (Nat.mod_lt _ hbp), Nat.zero_add]
  rw [hdel, ← hbe]
  by_cases hc : lx + ly ≤ w
  · have : st = ly - 1 - i := by omega
    simp only [p, if_pos hc, ← this]
    split <;> rfl
  · have hst' : st = w - b - 1 := by omega
    have hlt : l / 2 ^ (b + 1) < 2 ^ st := by
      rw [Nat.div_lt_iff_lt_mul (Nat.two_pow_pos _), ← Nat.pow_add]
      refine lt_of_lt_of_le hl (Nat.pow_le_pow_right (by omega) (by omega))
    rw [Nat.mod_eq_of_lt hlt]
    simp only [p, if_neg hc, ← hst']
    split
    next h => rw [h, Nat.zero_mul, Nat.zero_add]
    next h => rw [show l / 2 ^ b % 2 = 1 by omega, Nat.one_mul]

theorem lowerLayer_eq (h2 : (1 : F) + 1 = 0)
    {bf : Nat → Nat → Lanes F → Nat → Slice (Lanes F) → Option (Slice (Lanes F))} {op : F → F → F → F × F}
    (hbf : ∀ {w b : Nat} (_ : b < w) (tw : Lanes F) {index : Nat} {d : Slice (Lanes F)}, index % 2 = 0 →
      index + 1 < d.size → bf w b tw index d = some ⟨d.size, pairStep (packedOp op b tw) index (index + 1) d.val⟩)
    {w : Nat} {tas : List (TA F)} {γ : List F} (hr : Ready tas γ) {lx ly lz coset cb i : Nat}
    (hγ : γ.length = ly + cb) (hc : coset < 2 ^ cb) (hi : i < ly) (hw : lx + i < w) {d : Slice (Lanes F)}
    (hd : d.size = 2 * 2 ^ (lx + ly + lz - (w + 1))) :
    ∃ d', lowerLayer bf w tas ⟨lx, ly, lz⟩ coset i d = some d' ∧ d'.size = d.size ∧
      ∀ p < 2 ^ (lx + ly + lz), flat w d' p = layer op (lx + i) (twid γ ly coset i) (flat w d) p := by
  obtain ⟨t, ht, _, hget, hpair⟩ := hr.twiddle h2 (show i < γ.length by omega)
  obtain ⟨bt, hbt, hbtv⟩ := packedAdditiveTwiddle_eq (lz := lz) hi hw (show ly ≤ γ.length by omega) hget hpair
  obtain ⟨lpc, hlpc⟩ : ∃ lpc, lpc = ly - 1 - (w - lx) := ⟨_, rfl⟩
  have hcut : 2 ^ (ly - 1 - i) = 2 ^ (ly - 1 - i - lpc) * 2 ^ lpc := by
    rw [← Nat.pow_add]; congr 1; omega
  -- the scalar twiddle of packed pair k
  let tk : Nat → F := fun k => rawTwid γ i (coset * 2 ^ (ly - 1 - i) + k * 2 ^ (w - lx - i))
  have hklt : ∀ k < 2 ^ lpc, k * 2 ^ (w - lx - i) < 2 ^ (ly - 1 - i) := by
    intro k hk
    by_cases hcc : lx + ly ≤ w
    · have : lpc = 0 := by omega
      rw [this] at hk
      have : k = 0 := by omega
      rw [this, Nat.zero_mul]
      exact Nat.two_pow_pos _
    · have : ly - 1 - i = lpc + (w - lx - i) := by omega
      rw [this, Nat.pow_add]
      exact Nat.mul_lt_mul_of_pos_right hk (Nat.two_pow_pos _)
  have e1 : lowerLayer bf w tas ⟨lx, ly, lz⟩ coset i d =
      forRange (2 ^ (lx + ly + lz - (w + 1))) (fun q d =>
        bf w (lx + i) (fun l => tk (q % 2 ^ lpc) + bt l) (2 * q) d) d := by
    unfold lowerLayer
    rw [ht, Option.bind_some, hbt, Option.bind_some]
    dsimp only
    rw [← hlpc, show 2 ^ (lx + ly + lz - (w + 1)) = 2 ^ (lx + ly + lz - (w + lpc + 1)) * 2 ^ lpc by
      rw [← Nat.pow_add]; congr 1; omega, ← forRange_mul]
    refine forRange_congr (fun j hj d => ?_) _
    refine forRange_congr (fun k hk d => ?_) _
    have hk' := hklt k hk
    have hlt : coset * 2 ^ (ly - 1 - i) + k * 2 ^ (w - lx - i) < 2 ^ (γ.length - 1 - i) := by
      have : (coset + 1) * 2 ^ (ly - 1 - i) ≤ 2 ^ cb * 2 ^ (ly - 1 - i) := Nat.mul_le_mul_right _ hc
      rw [Nat.succ_mul, ← Nat.pow_add, show cb + (ly - 1 - i) = γ.length - 1 - i by omega] at this
      omega
    rw [Nat.shiftLeft_eq k, shl_or hk', hget _ hlt, Option.bind_some]
    have q3 : (j * 2 ^ lpc + k) % 2 ^ lpc = k := by
      rw [Nat.add_comm, Nat.add_mul_mod_self_right, Nat.mod_eq_of_lt hk]
    have hidx : (k <<< 1) ||| (j <<< (lpc + 1)) = 2 * (j * 2 ^ lpc + k) := by
      rw [Nat.shiftLeft_add, ← Nat.shiftLeft_or_distrib, Nat.or_comm, shl_or hk, Nat.shiftLeft_eq]
      omega
    rw [hidx, q3, Nat.add_comm i lx]
    rfl
  rw [e1, forRange_pairs (fun q => packedOp op (lx + i) (fun l => tk (q % 2 ^ lpc) + bt l)) (fun q => ins 0 q)
    (fun q => ins 0 q + 2 ^ 0) ?_ rfl]
  · refine ⟨_, rfl, rfl, fun p hp => ?_⟩
    -- the twiddle used is the twiddle of the layer
    have key : ∀ q e l, q < 2 ^ (lx + ly + lz - (w + 1)) → e < 2 → l < 2 ^ w →
        (2 * q + e) * 2 ^ w + l < 2 ^ (lx + ly + lz) → l / 2 ^ (lx + i) % 2 = e →
        tk (q % 2 ^ lpc) + bt l = twid γ ly coset i (((2 * q + e) * 2 ^ w + l) / 2 ^ (lx + i + 1)) := by
      intro q e l hq he hl hpos hle
      have hqk := hklt (q % 2 ^ lpc) (Nat.mod_lt _ (Nat.two_pow_pos _))
      have hlmin : l < 2 ^ min (lx + ly + lz) w := by
        rcases Nat.le_total (lx + ly + lz) w with h | h
        · rw [Nat.min_eq_left h]; omega
        · rw [Nat.min_eq_right h]; exact hl
      have hw' : 2 ^ w = 2 ^ (w - (lx + i + 1)) * 2 ^ (lx + i + 1) := by rw [← Nat.pow_add]; congr 1; omega
      have hdiv : ((2 * q + e) * 2 ^ w + l) / 2 ^ (lx + i + 1) =
          l / 2 ^ (lx + i + 1) + (2 * q + e) * 2 ^ (w - (lx + i + 1)) := by
        rw [hw', ← Nat.mul_assoc, Nat.add_comm, Nat.add_mul_div_right _ _ (Nat.two_pow_pos _)]
      show rawTwid γ i _ + _ = rawTwid γ i _
      rw [hbtv l hlmin, hdiv]
      by_cases hcc : lx + ly ≤ w
      · rw [if_pos hcc]
        have hl0 : lpc = 0 := by omega
        have hk0 : q % 2 ^ lpc = 0 := by rw [hl0, Nat.pow_zero, Nat.mod_one]
        rw [hk0, Nat.zero_mul, Nat.add_zero, rawTwid_add h2 (by omega) (Nat.mod_lt _ (Nat.two_pow_pos _))]
        have : 2 ^ (w - (lx + i + 1)) = 2 ^ (w - lx - ly) * 2 ^ (ly - 1 - i) := by
          rw [← Nat.pow_add]; congr 1; omega
        rw [this, ← Nat.mul_assoc, Nat.add_mul_mod_self_right]
      · rw [if_neg hcc, hle]
        obtain ⟨c, hcd⟩ : ∃ c, c = w - (lx + i + 1) := ⟨_, rfl⟩
        rw [show w - lx - i = c + 1 by omega] at hqk ⊢
        rw [show w - (lx + i) - 1 = c by omega, ← hcd]
        have hll : l / 2 ^ (lx + i + 1) < 2 ^ c := by
          rw [Nat.div_lt_iff_lt_mul (Nat.two_pow_pos _), ← Nat.pow_add, show c + (lx + i + 1) = w by omega]
          exact hl
        have hel : e * 2 ^ c + l / 2 ^ (lx + i + 1) < 2 ^ (c + 1) := by
          have : e * 2 ^ c ≤ 1 * 2 ^ c := Nat.mul_le_mul_right _ (by omega)
          have h5 : 2 ^ (c + 1) = 2 ^ c * 2 := Nat.pow_succ _ _
          omega
        have hly : ly - 1 - i = lpc + (c + 1) := by omega
        have e5 : coset * 2 ^ (ly - 1 - i) + q % 2 ^ lpc * 2 ^ (c + 1) =
            (coset * 2 ^ lpc + q % 2 ^ lpc) * 2 ^ (c + 1) := by
          rw [hly, Nat.pow_add]; ring
        rw [e5, rawTwid_add h2 (by omega) hel]
        congr 1
        have e6 : l / 2 ^ (lx + i + 1) + (2 * q + e) * 2 ^ c =
            q * 2 ^ (c + 1) + (e * 2 ^ c + l / 2 ^ (lx + i + 1)) := by
          rw [Nat.pow_succ]; ring
        have e7 : (q * 2 ^ (c + 1) + (e * 2 ^ c + l / 2 ^ (lx + i + 1))) % 2 ^ (lpc + (c + 1)) =
            q % 2 ^ lpc * 2 ^ (c + 1) + (e * 2 ^ c + l / 2 ^ (lx + i + 1)) := by
          rw [Nat.add_comm lpc, Nat.pow_add 2 (c + 1) lpc, Nat.mod_mul, Nat.add_comm (q * 2 ^ (c + 1)),
            Nat.add_mul_mod_self_right, Nat.mod_eq_of_lt hel, Nat.add_mul_div_right _ _ (Nat.two_pow_pos _),
            Nat.div_eq_of_lt hel, Nat.zero_add]
          ring
        rw [hly, e6, e7, Nat.pow_add 2 lpc]
        ring
    unfold flat
    dsimp only
    obtain ⟨P, hP⟩ : ∃ P, P = p / 2 ^ w := ⟨_, rfl⟩
    obtain ⟨l, hl⟩ : ∃ l, l = p % 2 ^ w := ⟨_, rfl⟩
    have hpe : p = P * 2 ^ w + l := by rw [hP, hl, Nat.div_add_mod']
    have hlw : l < 2 ^ w := hl ▸ Nat.mod_lt _ (Nat.two_pow_pos w)
    have hPlt : P < 2 ^ (lx + ly + lz - (w + 1)) * 2 ^ (0 + 1) := by
      rw [hP, Nat.div_lt_iff_lt_mul (Nat.two_pow_pos w), ← Nat.pow_add, ← Nat.pow_add]
      exact lt_of_lt_of_le hp (Nat.pow_le_pow_right (by omega) (by omega))
    have hwb : 2 ^ w = 2 ^ (w - (lx + i + 1)) * 2 * 2 ^ (lx + i) := by
      rw [← Nat.pow_succ, ← Nat.pow_add]; congr 1; omega
    have hbit : p / 2 ^ (lx + i) % 2 = l / 2 ^ (lx + i) % 2 := by
      rw [hpe, hwb, ← Nat.mul_assoc, Nat.add_comm, Nat.add_mul_div_right _ _ (Nat.two_pow_pos _), ← Nat.mul_assoc]
      omega
    rw [← hP, ← hl, show (2 : Nat) ^ (lx + ly + lz - (w + 1)) = 2 ^ (lx + ly + lz - (w + 1)) * 2 ^ 0 by simp,
      pairLoop_ins _ _ _ _ _ hPlt]
    have hdel : del 0 P = P / 2 := by simp [del]; omega
    rw [hdel]
    have hq : P / 2 < 2 ^ (lx + ly + lz - (w + 1)) := by omega
    unfold layer
    dsimp only
    rw [hbit, Nat.pow_zero, Nat.div_one]
    -- neighbours
    have nplus : l / 2 ^ (lx + i) % 2 = 0 → l + 2 ^ (lx + i) < 2 ^ w ∧
        (p + 2 ^ (lx + i)) / 2 ^ w = P ∧ (p + 2 ^ (lx + i)) % 2 ^ w = l + 2 ^ (lx + i) := by
      intro h0
      have hlt : l + 2 ^ (lx + i) < 2 ^ w := by
        have a1 : l / 2 ^ (lx + i) < 2 ^ (w - (lx + i + 1)) * 2 := by
          rw [Nat.div_lt_iff_lt_mul (Nat.two_pow_pos _), ← hwb]; exact hlw
        have a2 : (l + 2 ^ (lx + i)) / 2 ^ (lx + i) < 2 ^ (w - (lx + i + 1)) * 2 := by
          rw [Nat.add_div_right _ (Nat.two_pow_pos _)]; omega
        rw [Nat.div_lt_iff_lt_mul (Nat.two_pow_pos _), ← hwb] at a2
        exact a2
      refine ⟨hlt, ?_, ?_⟩
      · rw [hpe, Nat.add_assoc, Nat.add_comm, Nat.add_mul_div_right _ _ (Nat.two_pow_pos _), Nat.div_eq_of_lt hlt,
          Nat.zero_add]
      · rw [hpe, Nat.add_assoc, Nat.add_comm, Nat.add_mul_mod_self_right, Nat.mod_eq_of_lt hlt]
    have nminus : ¬ l / 2 ^ (lx + i) % 2 = 0 →
        (p - 2 ^ (lx + i)) / 2 ^ w = P ∧ (p - 2 ^ (lx + i)) % 2 ^ w = l - 2 ^ (lx + i) := by
      intro h0
      have h1 := (div_sub_pow h0).1
      have : p - 2 ^ (lx + i) = (l - 2 ^ (lx + i)) + P * 2 ^ w := by omega
      rw [this, Nat.add_mul_div_right _ _ (Nat.two_pow_pos _), Nat.add_mul_mod_self_right,
        Nat.div_eq_of_lt (lt_of_le_of_lt (Nat.sub_le _ _) hlw), Nat.mod_eq_of_lt (lt_of_le_of_lt (Nat.sub_le _ _) hlw)]
      exact ⟨Nat.zero_add _, rfl⟩
    -- the position with bit `lx+i` of the lane set to the parity of the element
    by_cases hPe : P % 2 = 0
    · rw [if_pos hPe]
      unfold packedOp
      dsimp only
      have hP2 : P = 2 * (P / 2) + 0 := by omega
      by_cases h0 : l / 2 ^ (lx + i) % 2 = 0
      · obtain ⟨_, n1, n2⟩ := nplus h0
        rw [if_pos h0, if_pos h0, n1, n2, key (P / 2) 0 l hq (by omega) hlw (by rw [← hP2, ← hpe]; exact hp) h0,
          ← hP2, ← hpe, ← hP, ← hl]
      · obtain ⟨n1, n2⟩ := nminus h0
        obtain ⟨d1, d2, d3⟩ := div_sub_pow h0
        have h0p : ¬ p / 2 ^ (lx + i) % 2 = 0 := by rw [hbit]; exact h0
        obtain ⟨f1, f2, f3⟩ := div_sub_pow h0p
        have hpm : (2 * (P / 2) + 0) * 2 ^ w + (l - 2 ^ (lx + i)) = p - 2 ^ (lx + i) := by
          rw [← hP2]; omega
        rw [if_neg h0, if_neg h0, n1, n2, key (P / 2) 0 (l - 2 ^ (lx + i)) hq (by omega) (lt_of_le_of_lt (Nat.sub_le _ _) hlw)
          (by rw [hpm]; exact lt_of_le_of_lt (Nat.sub_le _ _) hp) d2, hpm, f3, ← hP, ← hl]
    · rw [if_neg hPe]
      unfold packedOp
      dsimp only
      have hP2 : P = 2 * (P / 2) + 1 := by omega
      by_cases h0 : l / 2 ^ (lx + i) % 2 = 0
      · obtain ⟨n0, n1, n2⟩ := nplus h0
        have h0p : p / 2 ^ (lx + i) % 2 = 0 := by rw [hbit]; exact h0
        obtain ⟨f1, f2⟩ := div_add_pow h0p
        have hpm : (2 * (P / 2) + 1) * 2 ^ w + (l + 2 ^ (lx + i)) = p + 2 ^ (lx + i) := by
          rw [← hP2]; omega
        have hlt : p + 2 ^ (lx + i) < 2 ^ (lx + ly + lz) := by
          have a0 : 2 ^ (lx + ly + lz) = 2 ^ (ly + lz - i - 1) * 2 * 2 ^ (lx + i) := by
            rw [← Nat.pow_succ, ← Nat.pow_add]; congr 1; omega
          have a1 : p / 2 ^ (lx + i) < 2 ^ (ly + lz - i - 1) * 2 := by
            rw [Nat.div_lt_iff_lt_mul (Nat.two_pow_pos _), ← a0]; exact hp
          have a2 : (p + 2 ^ (lx + i)) / 2 ^ (lx + i) < 2 ^ (ly + lz - i - 1) * 2 := by
            rw [Nat.add_div_right _ (Nat.two_pow_pos _)]; omega
          rw [Nat.div_lt_iff_lt_mul (Nat.two_pow_pos _), ← a0] at a2
          exact a2
        rw [if_pos h0, if_pos h0, n1, n2, key (P / 2) 1 (l + 2 ^ (lx + i)) hq (by omega) n0
          (by rw [hpm]; exact hlt) (div_add_pow h0).1, hpm, f2, ← hP, ← hl]
      · obtain ⟨n1, n2⟩ := nminus h0
        rw [if_neg h0, if_neg h0, n1, n2, key (P / 2) 1 l hq (by omega) hlw (by rw [← hP2, ← hpe]; exact hp)
          (by omega), ← hP2, ← hpe, ← hP, ← hl]
  · intro q hq d' hd'
    have hi0 : ins 0 q = 2 * q := by simp [ins]; omega
    rw [hi0, hbf hw _ (by omega) (by omega), hd']
    rfl

end Verif.NTT
