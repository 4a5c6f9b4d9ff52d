import Verif.NTT.ModelMulti
import Verif.NTT.LemmasMain

/-! The two phases of the multithreaded NTT. -/

set_option linter.unusedSectionVars false

namespace Verif.NTT

open Finset Spec
open Verif.Strided (View)

variable {F : Type*} [Field F] [DecidableEq F]

/-! ### Interleavings -/

/-- A run on the contents. -/
def runPure (bf : F → Lanes F → Lanes F → Lanes F × Lanes F) (ops : List (ColOp F)) (m : Nat → Lanes F) :
    Nat → Lanes F :=
  ops.foldl (fun m o => pairStep (bf o.tw) o.a o.b m) m

theorem execOp_eq (bf : F → Lanes F → Lanes F → Lanes F × Lanes F) (d : Slice (Lanes F)) (o : ColOp F)
    (ha : o.a < d.size) (hb : o.b < d.size) :
    execOp bf d o = some ⟨d.size, pairStep (bf o.tw) o.a o.b d.val⟩ := by
  unfold execOp
  rw [Slice.get?_of_lt ha, Option.bind_some, Slice.get?_of_lt hb, Option.bind_some, Slice.set?_of_lt ha,
    Option.bind_some, set?_mk hb]
  rfl

theorem runColumns_eq (bf : F → Lanes F → Lanes F → Lanes F × Lanes F) : ∀ (s : ColSchedule F) (d : Slice (Lanes F)),
    (∀ o ∈ s, o.2.a < d.size ∧ o.2.b < d.size) →
    runColumns bf s d = some ⟨d.size, runPure bf (s.map (·.2)) d.val⟩
  | [], d, _ => rfl
  | o :: s, d, h => by
    have ho := h o List.mem_cons_self
    have := runColumns_eq bf s ⟨d.size, pairStep (bf o.2.tw) o.2.a o.2.b d.val⟩
      fun o' ho' => h o' (List.mem_cons_of_mem _ ho')
    unfold runColumns at this ⊢
    rw [List.foldlM_cons, execOp_eq bf d o.2 ho.1 ho.2]
    exact this

theorem pairStep_of_ne {α : Type*} (f : α → α → α × α) {a b e : Nat} (m : Nat → α) (ha : e ≠ a) (hb : e ≠ b) :
    pairStep f a b m e = m e := by
  unfold pairStep
  rw [if_neg hb, if_neg ha]

theorem pairStep_congr {α : Type*} (f : α → α → α × α) {a b e : Nat} {m m' : Nat → α} (he : m e = m' e)
    (ha : m a = m' a) (hb : m b = m' b) : pairStep f a b m e = pairStep f a b m' e := by
  unfold pairStep
  rw [he, ha, hb]

/-- The content of a region after an interleaving is what the task of the region alone computes. -/
theorem run_region (bf : F → Lanes F → Lanes F → Lanes F × Lanes F) (reg : Nat → Nat) (t : Nat) :
    ∀ (s : ColSchedule F) (m m' : Nat → Lanes F), (∀ o ∈ s, reg o.2.a = o.1 ∧ reg o.2.b = o.1) →
      (∀ e, reg e = t → m e = m' e) →
      ∀ e, reg e = t → runPure bf (s.map (·.2)) m e = runPure bf ((s.filter (·.1 = t)).map (·.2)) m' e
  | [], m, m', _, h => h
  | o :: s, m, m', hs, h => by
    have ho := hs o List.mem_cons_self
    have ih := run_region bf reg t s
    by_cases ht : o.1 = t
    · rw [List.filter_cons_of_pos (by simpa using ht)]
      refine ih _ _ (fun o' ho' => hs o' (List.mem_cons_of_mem _ ho')) fun e he => ?_
      exact pairStep_congr _ (h e he) (h _ (by rw [ho.1, ht])) (h _ (by rw [ho.2, ht]))
    · rw [List.filter_cons_of_neg (by simpa using ht)]
      refine ih _ _ (fun o' ho' => hs o' (List.mem_cons_of_mem _ ho')) fun e he => ?_
      refine (pairStep_of_ne _ _ ?_ ?_).trans (h e he)
      · rintro rfl; exact ht (ho.1.symm.trans he)
      · rintro rfl; exact ht (ho.2.symm.trans he)

/-! ### The program of a stride -/

theorem forRange_snoc {α : Type*} (n : Nat) (f : Nat → α) (s : List α) :
    forRange n (fun q ops => some (ops ++ [f q])) s = some (s ++ (List.range n).map f) := by
  induction n with
  | zero => simp [forRange]
  | succ n ih => rw [forRange, ih, Option.bind_some, List.range_succ]; simp

theorem forRange_flatMap {α : Type*} (n : Nat) (f : Nat → List α) (s : List α) :
    forRange n (fun q ops => some (ops ++ f q)) s = some (s ++ (List.range n).flatMap f) := by
  induction n with
  | zero => simp [forRange]
  | succ n ih => rw [forRange, ih, Option.bind_some, List.range_succ]; simp

/-- The first element of butterfly `q` of round `i` of stride `st`. -/
def cellA (lw lsl st i q : Nat) : Nat := ins i (q / 2 ^ lsl) * 2 ^ lw + (q % 2 ^ lsl + st * 2 ^ lsl)

/-- The butterflies of round `i` of stride `st`. -/
def roundOps (lw lz par lsl st : Nat) (tw : Nat → Nat → F) (i : Nat) : List (ColOp F) :=
  (List.range (2 ^ lz * 2 ^ (par - 1 - i) * 2 ^ i * 2 ^ lsl)).map fun q =>
    ⟨tw i (q / 2 ^ lsl / 2 ^ i % 2 ^ (par - 1 - i)), cellA lw lsl st i q, cellA lw lsl st i q + 2 ^ (lw + i)⟩

theorem strideRound_eq {tas : List (TA F)} {lw lz par coset lsl st i h size : Nat} {tw : Nat → Nat → F} (hi : i < par)
    (hh : h = lz + par) (hst : (st + 1) * 2 ^ lsl ≤ 2 ^ lw) {t : TA F} (ht : tas[i]? = some t)
    (hget : ∀ k < 2 ^ (par - 1 - i), t.get ((coset <<< (par - 1 - i)) ||| k) = some (tw i k)) (ops : List (ColOp F)) :
    strideRound tas lz par coset lsl ⟨size, 2 ^ lw, 2 ^ h, st * 2 ^ lsl, min (st * 2 ^ lsl + 2 ^ lsl) (2 ^ lw)⟩ i ops =
      some (ops ++ roundOps lw lz par lsl st tw i) := by
  have hip := Nat.two_pow_pos i
  have hlp := Nat.two_pow_pos lsl
  unfold strideRound roundOps
  rw [ht, Option.bind_some, ← forRange_snoc, ← forRange_mul, ← forRange_mul, ← forRange_mul]
  refine forRange_congr (fun j hj ops => ?_) _
  refine forRange_congr (fun k hk ops => ?_) _
  rw [hget k hk, Option.bind_some]
  refine forRange_congr (fun l hl ops => ?_) _
  refine forRange_congr (fun m hm ops => ?_) _
  have q0 : (((j * 2 ^ (par - 1 - i) + k) * 2 ^ i + l) * 2 ^ lsl + m) / 2 ^ lsl =
      (j * 2 ^ (par - 1 - i) + k) * 2 ^ i + l := by
    rw [Nat.add_comm, Nat.add_mul_div_right _ _ hlp, Nat.div_eq_of_lt hm, Nat.zero_add]
  have q0' : (((j * 2 ^ (par - 1 - i) + k) * 2 ^ i + l) * 2 ^ lsl + m) % 2 ^ lsl = m := by
    rw [Nat.add_comm, Nat.add_mul_mod_self_right, Nat.mod_eq_of_lt hm]
  have q1 : ((j * 2 ^ (par - 1 - i) + k) * 2 ^ i + l) / 2 ^ i = j * 2 ^ (par - 1 - i) + k := by
    rw [Nat.add_comm, Nat.add_mul_div_right _ _ hip, Nat.div_eq_of_lt hl, Nat.zero_add]
  have q2 : ((j * 2 ^ (par - 1 - i) + k) * 2 ^ i + l) % 2 ^ i = l := by
    rw [Nat.add_comm, Nat.add_mul_mod_self_right, Nat.mod_eq_of_lt hl]
  have q3 : (j * 2 ^ (par - 1 - i) + k) % 2 ^ (par - 1 - i) = k := by
    rw [Nat.add_comm, Nat.add_mul_mod_self_right, Nat.mod_eq_of_lt hk]
  have hl' : l < 2 ^ (i + 1) := by rw [Nat.pow_succ]; omega
  have hidx : (j <<< par) ||| (k <<< (i + 1)) ||| l = ins i ((j * 2 ^ (par - 1 - i) + k) * 2 ^ i + l) := by
    unfold ins
    rw [q1, q2]
    conv_lhs => rw [show par = (par - 1 - i) + (i + 1) by omega]
    rw [Nat.shiftLeft_add, ← Nat.shiftLeft_or_distrib, shl_or hk, shl_or hl']
  have hor : (j <<< par) ||| (k <<< (i + 1)) ||| l ||| (1 <<< i) =
      ins i ((j * 2 ^ (par - 1 - i) + k) * 2 ^ i + l) + 2 ^ i := by
    conv_lhs => rw [show par = (par - 1 - i) + (i + 1) by omega]
    rw [Nat.or_assoc, Nat.or_comm l, shl_or hl, Nat.shiftLeft_add, ← Nat.shiftLeft_or_distrib, shl_or hk,
      shl_or (by rw [Nat.pow_succ]; omega)]
    unfold ins
    rw [q1, q2]
    omega
  have hrow : ins i ((j * 2 ^ (par - 1 - i) + k) * 2 ^ i + l) + 2 ^ i < 2 ^ h := by
    unfold ins
    rw [q1, q2]
    have a1 : (j + 1) * 2 ^ (par - 1 - i) ≤ 2 ^ lz * 2 ^ (par - 1 - i) := Nat.mul_le_mul_right _ hj
    rw [Nat.succ_mul] at a1
    have a2 : (j * 2 ^ (par - 1 - i) + k + 1) * 2 ^ (i + 1) ≤ 2 ^ lz * 2 ^ (par - 1 - i) * 2 ^ (i + 1) :=
      Nat.mul_le_mul_right _ (by omega)
    rw [Nat.succ_mul, ← Nat.pow_add, ← Nat.pow_add, show lz + (par - 1 - i) + (i + 1) = h by omega] at a2
    have a3 : 2 ^ (i + 1) = 2 ^ i + 2 ^ i := by rw [Nat.pow_succ]; omega
    omega
  have hwd : min (st * 2 ^ lsl + 2 ^ lsl) (2 ^ lw) - st * 2 ^ lsl = 2 ^ lsl := by
    rw [Nat.succ_mul] at hst; omega
  have cell : ∀ r, r < 2 ^ h → View.cell ⟨size, 2 ^ lw, 2 ^ h, st * 2 ^ lsl, min (st * 2 ^ lsl + 2 ^ lsl) (2 ^ lw)⟩ r m =
      some (r * 2 ^ lw + m + st * 2 ^ lsl) := by
    intro r hr
    unfold View.cell View.width
    rw [if_pos ⟨hr, by rw [hwd]; exact hm⟩]
  dsimp only
  rw [hor, hidx, cell _ (by omega), Option.bind_some, cell _ hrow, Option.bind_some, q0, q1, q3]
  have hA : cellA lw lsl st i (((j * 2 ^ (par - 1 - i) + k) * 2 ^ i + l) * 2 ^ lsl + m) =
      ins i ((j * 2 ^ (par - 1 - i) + k) * 2 ^ i + l) * 2 ^ lw + m + st * 2 ^ lsl := by
    unfold cellA
    rw [q0, q0', Nat.add_assoc]
  have hB : (ins i ((j * 2 ^ (par - 1 - i) + k) * 2 ^ i + l) + 2 ^ i) * 2 ^ lw + m + st * 2 ^ lsl =
      ins i ((j * 2 ^ (par - 1 - i) + k) * 2 ^ i + l) * 2 ^ lw + m + st * 2 ^ lsl + 2 ^ (lw + i) := by
    rw [Nat.add_mul, ← Nat.pow_add, Nat.add_comm i lw]
    omega
  rw [hA, hB]

/-! ### What a stride computes -/

/-- A layer on packed elements. -/
def elemLayer (bf : F → Lanes F → Lanes F → Lanes F × Lanes F) (b : Nat) (t : Nat → F) (g : Nat → Lanes F) (e : Nat) :
    Lanes F :=
  if e / 2 ^ b % 2 = 0 then (bf (t (e / 2 ^ (b + 1))) (g e) (g (e + 2 ^ b))).1
  else (bf (t (e / 2 ^ (b + 1))) (g (e - 2 ^ b)) (g e)).2

/-- Layers for a list of rounds. -/
def elemLayers (bf : F → Lanes F → Lanes F → Lanes F × Lanes F) (lw : Nat) (t : Nat → Nat → F) (rounds : List Nat)
    (g : Nat → Lanes F) : Nat → Lanes F :=
  rounds.foldl (fun g i => elemLayer bf (lw + i) (t i) g) g

theorem row_col_add {lw i e : Nat} :
    (e + 2 ^ (lw + i)) / 2 ^ lw = e / 2 ^ lw + 2 ^ i ∧ (e + 2 ^ (lw + i)) % 2 ^ lw = e % 2 ^ lw := by
  rw [Nat.pow_add, Nat.mul_comm, Nat.add_mul_div_right _ _ (Nat.two_pow_pos lw), Nat.add_mul_mod_self_right]
  exact ⟨rfl, rfl⟩

/-- One round of one stride, on the elements of the stride. -/
theorem round_eq (bf : F → Lanes F → Lanes F → Lanes F × Lanes F) {lw lz par lsl st i : Nat} {tw : Nat → Nat → F}
    (hi : i < par) (hst : (st + 1) * 2 ^ lsl ≤ 2 ^ lw) (g : Nat → Lanes F) (e : Nat)
    (he : e < 2 ^ (lw + (lz + par))) (hcol : e % 2 ^ lw / 2 ^ lsl = st) :
    runPure bf (roundOps lw lz par lsl st tw i) g e =
      elemLayer bf (lw + i) (fun m => tw i (m % 2 ^ (par - 1 - i))) g e := by
  have hip := Nat.two_pow_pos i
  have hlp := Nat.two_pow_pos lsl
  have hlwp := Nat.two_pow_pos lw
  have hcolq : ∀ q, q % 2 ^ lsl + st * 2 ^ lsl < 2 ^ lw := by
    intro q
    have := Nat.mod_lt q hlp
    rw [Nat.succ_mul] at hst
    omega
  have hdivA : ∀ q, cellA lw lsl st i q / 2 ^ lw = ins i (q / 2 ^ lsl) := by
    intro q
    unfold cellA
    rw [Nat.add_comm, Nat.add_mul_div_right _ _ hlwp, Nat.div_eq_of_lt (hcolq q), Nat.zero_add]
  have hmodA : ∀ q, cellA lw lsl st i q % 2 ^ lw = q % 2 ^ lsl + st * 2 ^ lsl := by
    intro q
    unfold cellA
    rw [Nat.add_comm, Nat.add_mul_mod_self_right, Nat.mod_eq_of_lt (hcolq q)]
  have hinj : ∀ q q', cellA lw lsl st i q = cellA lw lsl st i q' → q = q' := by
    intro q q' h
    have h1 := hdivA q
    have h2 := hmodA q
    rw [h, hdivA q'] at h1
    rw [h, hmodA q'] at h2
    have h3 := ins_inj h1
    rw [← Nat.div_add_mod q (2 ^ lsl), ← Nat.div_add_mod q' (2 ^ lsl), h3]
    omega
  have hbit : ∀ q, cellA lw lsl st i q / 2 ^ (lw + i) % 2 = 0 := by
    intro q
    rw [Nat.pow_add, ← Nat.div_div_eq_div_mul, hdivA]
    exact (ins_bits i _).1
  have hne : ∀ q q', cellA lw lsl st i q ≠ cellA lw lsl st i q' + 2 ^ (lw + i) := by
    intro q q' h
    have h1 := hbit q
    have h2 := (div_add_pow (hbit q')).1
    rw [h] at h1
    omega
  have hpl := Nat.two_pow_pos (lw + i)
  have hdis : DisjointPairs (cellA lw lsl st i) (fun q => cellA lw lsl st i q + 2 ^ (lw + i))
      (List.range (2 ^ lz * 2 ^ (par - 1 - i) * 2 ^ i * 2 ^ lsl)) := by
    refine ⟨fun q _ => by omega, List.Pairwise.imp ?_ List.nodup_range⟩
    intro q q' hq
    exact ⟨fun h => hq (hinj _ _ h), hne q q', fun h => hne q' q h.symm, fun h => hq (hinj _ _ (by omega))⟩
  have hrun : runPure bf (roundOps lw lz par lsl st tw i) g =
      pairLoop (fun q => bf (tw i (q / 2 ^ lsl / 2 ^ i % 2 ^ (par - 1 - i)))) (cellA lw lsl st i)
        (fun q => cellA lw lsl st i q + 2 ^ (lw + i)) (List.range (2 ^ lz * 2 ^ (par - 1 - i) * 2 ^ i * 2 ^ lsl)) g := by
    unfold runPure roundOps pairLoop
    rw [List.foldl_map]
  have hcolm : ∀ e, e % 2 ^ lw / 2 ^ lsl = st → e % 2 ^ lw = e % 2 ^ lsl + st * 2 ^ lsl := by
    intro e h
    have hd : 2 ^ lsl ∣ 2 ^ lw := by
      refine pow_dvd_pow 2 ?_
      by_contra hc
      have : 2 ^ lw < 2 ^ lsl := Nat.pow_lt_pow_right (by omega) (by omega)
      rw [Nat.succ_mul] at hst
      omega
    have := Nat.div_add_mod (e % 2 ^ lw) (2 ^ lsl)
    rw [h, Nat.mod_mod_of_dvd _ hd, Nat.mul_comm] at this
    omega
  -- the butterfly of an element with clear bit
  have hq : ∀ e, e < 2 ^ (lw + (lz + par)) → e % 2 ^ lw / 2 ^ lsl = st → e / 2 ^ (lw + i) % 2 = 0 →
      ∃ q, q ∈ List.range (2 ^ lz * 2 ^ (par - 1 - i) * 2 ^ i * 2 ^ lsl) ∧ cellA lw lsl st i q = e ∧
        q / 2 ^ lsl / 2 ^ i = e / 2 ^ (lw + i + 1) := by
    intro e he hc hb
    have hb' : e / 2 ^ lw / 2 ^ i % 2 = 0 := by rw [Nat.div_div_eq_div_mul, ← Nat.pow_add]; exact hb
    have ml := Nat.mod_lt e hlp
    refine ⟨del i (e / 2 ^ lw) * 2 ^ lsl + e % 2 ^ lsl, ?_, ?_, ?_⟩
    · rw [List.mem_range]
      have hr : e / 2 ^ lw < 2 ^ (lz + par) := by
        rw [Nat.div_lt_iff_lt_mul hlwp, ← Nat.pow_add, Nat.add_comm _ lw]; exact he
      have hdl : del i (e / 2 ^ lw) < 2 ^ lz * 2 ^ (par - 1 - i) * 2 ^ i := by
        unfold del
        have h1 : e / 2 ^ lw / 2 ^ (i + 1) < 2 ^ lz * 2 ^ (par - 1 - i) := by
          rw [Nat.div_lt_iff_lt_mul (Nat.two_pow_pos _), ← Nat.pow_add, ← Nat.pow_add,
            show lz + (par - 1 - i) + (i + 1) = lz + par by omega]
          exact hr
        have h2 := Nat.mul_le_mul_right (2 ^ i) h1
        rw [Nat.succ_mul] at h2
        have h3 := Nat.mod_lt (e / 2 ^ lw) hip
        omega
      have h2 := Nat.mul_le_mul_right (2 ^ lsl) hdl
      rw [Nat.succ_mul] at h2
      omega
    · unfold cellA
      rw [Nat.add_comm (_ * 2 ^ lsl), Nat.add_mul_div_right _ _ hlp, Nat.div_eq_of_lt ml, Nat.zero_add, ins_del hb',
        Nat.add_mul_mod_self_right, Nat.mod_mod, ← hcolm e hc, Nat.div_add_mod']
    · rw [Nat.add_comm, Nat.add_mul_div_right _ _ hlp, Nat.div_eq_of_lt ml, Nat.zero_add]
      unfold del
      rw [Nat.add_comm, Nat.add_mul_div_right _ _ hip, Nat.div_eq_of_lt (Nat.mod_lt _ hip), Nat.zero_add,
        Nat.div_div_eq_div_mul, ← Nat.pow_add, Nat.add_assoc]
  rw [hrun]
  unfold elemLayer
  by_cases hb : e / 2 ^ (lw + i) % 2 = 0
  · obtain ⟨q, hqm, hqe, hqk⟩ := hq e he hcol hb
    have := (pairLoop_of_mem (fun q => bf (tw i (q / 2 ^ lsl / 2 ^ i % 2 ^ (par - 1 - i)))) _ _ _ g hdis q hqm).1
    rw [hqe, hqk] at this
    rw [if_pos hb]
    exact this
  · obtain ⟨h1, h3, h4⟩ := div_sub_pow hb
    have hcs : (e - 2 ^ (lw + i)) % 2 ^ lw = e % 2 ^ lw := by
      conv_rhs => rw [← Nat.sub_add_cancel h1, Nat.pow_add, Nat.mul_comm, Nat.add_mul_mod_self_right]
      rw [Nat.pow_add, Nat.mul_comm]
    obtain ⟨q, hqm, hqe, hqk⟩ := hq (e - 2 ^ (lw + i)) (by omega) (by rw [hcs]; exact hcol) h3
    have := (pairLoop_of_mem (fun q => bf (tw i (q / 2 ^ lsl / 2 ^ i % 2 ^ (par - 1 - i)))) _ _ _ g hdis q hqm).2
    rw [hqe, hqk, Nat.sub_add_cancel h1, h4] at this
    rw [if_neg hb]
    exact this

/-- All rounds of one stride. -/
theorem stride_eq (bf : F → Lanes F → Lanes F → Lanes F × Lanes F) {lw lz par lsl st : Nat} {tw : Nat → Nat → F}
    (hst : (st + 1) * 2 ^ lsl ≤ 2 ^ lw) : ∀ (rounds : List Nat), (∀ i ∈ rounds, i < par) → ∀ (g g' : Nat → Lanes F),
    (∀ e, e < 2 ^ (lw + (lz + par)) → e % 2 ^ lw / 2 ^ lsl = st → g e = g' e) →
    ∀ e, e < 2 ^ (lw + (lz + par)) → e % 2 ^ lw / 2 ^ lsl = st →
      runPure bf (rounds.flatMap (roundOps lw lz par lsl st tw)) g e =
        elemLayers bf lw (fun i m => tw i (m % 2 ^ (par - 1 - i))) rounds g' e
  | [], _, g, g', h => h
  | i :: rounds, hr, g, g', h => by
    intro e he hc
    rw [List.flatMap_cons]
    unfold runPure elemLayers
    rw [List.foldl_append, List.foldl_cons]
    refine stride_eq bf hst rounds (fun j hj => hr j (List.mem_cons_of_mem _ hj)) _ _ (fun e he hc => ?_) e he hc
    have hi := hr i List.mem_cons_self
    refine (round_eq bf hi hst g e he hc).trans ?_
    unfold elemLayer
    by_cases hb : e / 2 ^ (lw + i) % 2 = 0
    · have hb' : e / 2 ^ lw / 2 ^ i % 2 = 0 := by rw [Nat.div_div_eq_div_mul, ← Nat.pow_add]; exact hb
      have hlt : e + 2 ^ (lw + i) < 2 ^ (lw + (lz + par)) := by
        have a0 : 2 ^ (lw + (lz + par)) = 2 ^ (lz + par - i - 1) * 2 * 2 ^ (lw + i) := by
          rw [← Nat.pow_succ, ← Nat.pow_add]; congr 1; omega
        have a1 : e / 2 ^ (lw + i) < 2 ^ (lz + par - i - 1) * 2 := by
          rw [Nat.div_lt_iff_lt_mul (Nat.two_pow_pos _), ← a0]; exact he
        have a2 : (e + 2 ^ (lw + i)) / 2 ^ (lw + i) < 2 ^ (lz + par - i - 1) * 2 := by
          rw [Nat.add_div_right _ (Nat.two_pow_pos _)]; omega
        rw [Nat.div_lt_iff_lt_mul (Nat.two_pow_pos _), ← a0] at a2
        exact a2
      rw [if_pos hb, if_pos hb, h e he hc, h _ hlt (by rw [(row_col_add (lw := lw) (i := i)).2]; exact hc)]
    · obtain ⟨h1, h3, h4⟩ := div_sub_pow hb
      have hcs : (e - 2 ^ (lw + i)) % 2 ^ lw = e % 2 ^ lw := by
        conv_rhs => rw [← Nat.sub_add_cancel h1, Nat.pow_add, Nat.mul_comm, Nat.add_mul_mod_self_right]
        rw [Nat.pow_add, Nat.mul_comm]
      rw [if_neg hb, if_neg hb, h e he hc, h _ (lt_of_le_of_lt (Nat.sub_le _ _) he) (by rw [hcs]; exact hc)]

end Verif.NTT
