import Verif.NTT.LemmasMulti

/-! The whole multithreaded transforms as sequences of layers. -/

set_option linter.unusedSectionVars false

namespace Verif.NTT

open Finset Spec
open Verif.Strided (View stepBy)

variable {F : Type*} [Field F] [DecidableEq F]

theorem mapM_some {α β : Type*} {f : α → Option β} {g : α → β} : ∀ (l : List α), (∀ x ∈ l, f x = some (g x)) →
    l.mapM f = some (l.map g)
  | [], _ => rfl
  | x :: l, h => by
    rw [List.mapM_cons, h x List.mem_cons_self, mapM_some l fun y hy => h y (List.mem_cons_of_mem _ hy)]
    rfl

/-! ### The programs -/

/-- The relations between the sizes of a plan. -/
structure PlanOk (w lx ly lz : Nat) (p : Plan) : Prop where
  total : p.logWidth + w + p.logHeight = lx + ly + lz
  row : lx + p.rowLogY + p.logRowZ = p.logWidth + w
  rounds : p.rowLogY + p.parRounds = ly
  split : p.parRounds = 0 ∨ p.logRowZ = 0
  height : p.logHeight ≤ lz + p.parRounds
  height' : 0 < p.parRounds → p.logHeight = lz + p.parRounds
  width : 1 ≤ p.logWidth

theorem plan_ok {w lx ly lz t : Nat} {p : Plan} (h : plan w ⟨lx, ly, lz⟩ t = some p) : PlanOk w lx ly lz p := by
  unfold plan at h
  dsimp only at h
  split at h
  · exact absurd h (by simp)
  · next hT =>
    obtain rfl := Option.some.inj h
    have hm : max (w + 1) lx ≤ lx + ly + lz := by omega
    have h1 : w + 1 ≤ lx + ly + lz := le_trans (le_max_left _ _) hm
    have h2 : min (lx + ly + lz - max (w + 1) lx) t + max (w + 1) lx ≤ lx + ly + lz := by omega
    have h3 : min (lx + ly + lz - max (w + 1) lx) t + (w + 1) ≤ lx + ly + lz :=
      le_trans (Nat.add_le_add_left (le_max_left _ _) _) h2
    have h4 : min (lx + ly + lz - max (w + 1) lx) t + lx ≤ lx + ly + lz :=
      le_trans (Nat.add_le_add_left (le_max_right _ _) _) h2
    generalize min (lx + ly + lz - max (w + 1) lx) t = H at *
    constructor <;> dsimp only <;> omega

/-- The twiddles of the column phase. -/
def colTw (γ : List F) (p : Plan) (coset i k : Nat) : F :=
  normPoly γ (i + p.rowLogY) (point γ ((coset * 2 ^ (p.parRounds - 1 - i) + k) * 2 ^ (i + p.rowLogY + 1)))

theorem colTw_twid (γ : List F) {w lx ly lz : Nat} {p : Plan} (hp : PlanOk w lx ly lz p) (coset : Nat) {i : Nat} (m : Nat) :
    colTw γ p coset i (m % 2 ^ (p.parRounds - 1 - i)) = twid γ ly coset (i + p.rowLogY) m := by
  unfold colTw twid
  rw [show ly - 1 - (i + p.rowLogY) = p.parRounds - 1 - i by have := hp.rounds; omega]

/-- The strides of the matrix. -/
theorem intoStrides_eq {size lw h lsl : Nat} (hl : lsl ≤ lw) :
    (View.mk size (2 ^ lw) (2 ^ h) 0 (2 ^ lw)).intoStrides (2 ^ lsl) =
      some ((List.range (2 ^ (lw - lsl))).map fun st =>
        ⟨size, 2 ^ lw, 2 ^ h, st * 2 ^ lsl, min (st * 2 ^ lsl + 2 ^ lsl) (2 ^ lw)⟩) := by
  have hp := Nat.two_pow_pos lsl
  unfold View.intoStrides stepBy
  rw [if_neg hp.ne', List.map_map]
  have : (2 ^ lw - 0 + 2 ^ lsl - 1) / 2 ^ lsl = 2 ^ (lw - lsl) := by
    have e : 2 ^ lw = 2 ^ (lw - lsl) * 2 ^ lsl := by rw [← Nat.pow_add]; congr 1; omega
    rw [e, Nat.sub_zero, Nat.add_sub_assoc hp, Nat.add_comm, Nat.add_mul_div_right _ _ hp,
      Nat.div_eq_of_lt (by omega), Nat.zero_add]
  rw [this]
  congr 1
  refine List.map_congr_left fun st _ => ?_
  simp only [Function.comp_apply, Nat.zero_add]

theorem stride_le {lw lsl st : Nat} (hl : lsl ≤ lw) (h : st < 2 ^ (lw - lsl)) : (st + 1) * 2 ^ lsl ≤ 2 ^ lw := by
  have := Nat.mul_le_mul_right (2 ^ lsl) h
  rw [← Nat.pow_add, show lw - lsl + lsl = lw by omega] at this
  exact this

/-- The program of each stride, given the order of its rounds. -/
theorem columnPrograms_eq (h2 : (1 : F) + 1 = 0)
    {program : List (TA F) → Nat → Nat → Nat → Nat → Nat → View → Option (List (ColOp F))} {rounds : List Nat}
    {tas : List (TA F)} {β : List F} (hr : Ready tas β) (hind : Independent β) {w lx ly lz coset cb skip t : Nat}
    (hcos : coset < 2 ^ cb) (hdom : ly + cb ≤ β.length) {p : Plan} (hp : PlanOk w lx ly lz p)
    (hprog : ∀ tas' lsl view (g : Nat → List (ColOp F)),
      (∀ i < p.parRounds, ∀ ops, strideRound tas' lz p.parRounds coset lsl view i ops = some (ops ++ g i)) →
      program tas' lz p.parRounds coset skip lsl view = some (rounds.flatMap g)) {size : Nat}
    (hsize : size = 2 ^ (p.logWidth + p.logHeight)) :
    columnPrograms program β.length tas size ⟨lx, ly, lz⟩ coset cb skip t p =
      some ((List.range (2 ^ (p.logWidth - (p.logWidth - min t p.logWidth)))).map fun st =>
        rounds.flatMap (roundOps p.logWidth lz p.parRounds (p.logWidth - min t p.logWidth) st
          (colTw (domainBasis β (ly + cb)) p coset))) := by
  have hpr := hp.rounds
  have hr' := hr.domain h2 hind hdom
  have hγ := domainBasis_length hdom
  unfold columnPrograms
  rw [if_neg (not_not.2 (by rw [hsize, Nat.pow_add])), if_neg (by omega)]
  dsimp only
  rw [intoStrides_eq (by omega), Option.bind_some]
  have hm : (List.range (2 ^ (p.logWidth - (p.logWidth - min t p.logWidth)))).map (fun st =>
        rounds.flatMap (roundOps p.logWidth lz p.parRounds (p.logWidth - min t p.logWidth) st
          (colTw (domainBasis β (ly + cb)) p coset))) =
      ((List.range (2 ^ (p.logWidth - (p.logWidth - min t p.logWidth)))).map fun st =>
        (View.mk size (2 ^ p.logWidth) (2 ^ p.logHeight) (st * 2 ^ (p.logWidth - min t p.logWidth))
          (min (st * 2 ^ (p.logWidth - min t p.logWidth) + 2 ^ (p.logWidth - min t p.logWidth)) (2 ^ p.logWidth)))).map
        fun v => rounds.flatMap (roundOps p.logWidth lz p.parRounds (p.logWidth - min t p.logWidth)
          (v.colStart / 2 ^ (p.logWidth - min t p.logWidth)) (colTw (domainBasis β (ly + cb)) p coset)) := by
    rw [List.map_map]
    refine List.map_congr_left fun st _ => ?_
    rw [Function.comp_apply]
    dsimp only
    rw [Nat.mul_div_cancel _ (Nat.two_pow_pos _)]
  rw [hm]
  refine mapM_some _ fun v hv => ?_
  obtain ⟨st, hst, rfl⟩ := List.mem_map.1 hv
  rw [List.mem_range] at hst
  dsimp only
  rw [Nat.mul_div_cancel _ (Nat.two_pow_pos _)]
  refine hprog _ _ _ _ fun i hi ops => ?_
  obtain ⟨ta, ht, _, hget, _⟩ := hr'.twiddle h2 (show i + p.rowLogY < (domainBasis β (ly + cb)).length by omega)
  refine strideRound_eq hi (hp.height' (by omega)) (stride_le (by omega) hst) (t := ta) ?_ (fun k hk => ?_) ops
  · rw [List.getElem?_drop] at ht ⊢
    rw [← ht]
    congr 1
    omega
  · rw [shl_or hk, hget]
    · rfl
    · have : (coset + 1) * 2 ^ (p.parRounds - 1 - i) ≤ 2 ^ cb * 2 ^ (p.parRounds - 1 - i) := Nat.mul_le_mul_right _ hcos
      rw [Nat.succ_mul, ← Nat.pow_add,
        show cb + (p.parRounds - 1 - i) = (domainBasis β (ly + cb)).length - 1 - (i + p.rowLogY) by omega] at this
      omega

theorem roundOps_mem {lw lz par lsl st i : Nat} {tw : Nat → Nat → F} (hi : i < par) (hst : (st + 1) * 2 ^ lsl ≤ 2 ^ lw)
    {o : ColOp F} (ho : o ∈ roundOps lw lz par lsl st tw i) :
    o.a % 2 ^ lw / 2 ^ lsl = st ∧ o.b % 2 ^ lw / 2 ^ lsl = st ∧ o.a < 2 ^ (lw + (lz + par)) ∧
      o.b < 2 ^ (lw + (lz + par)) := by
  have hip := Nat.two_pow_pos i
  have hlp := Nat.two_pow_pos lsl
  have hlwp := Nat.two_pow_pos lw
  obtain ⟨q, hq, rfl⟩ := List.mem_map.1 ho
  rw [List.mem_range] at hq
  have hml := Nat.mod_lt q hlp
  have hcol : q % 2 ^ lsl + st * 2 ^ lsl < 2 ^ lw := by rw [Nat.succ_mul] at hst; omega
  have hA : cellA lw lsl st i q % 2 ^ lw = q % 2 ^ lsl + st * 2 ^ lsl := by
    unfold cellA
    rw [Nat.add_comm, Nat.add_mul_mod_self_right, Nat.mod_eq_of_lt hcol]
  have hA' : cellA lw lsl st i q % 2 ^ lw / 2 ^ lsl = st := by
    rw [hA, Nat.add_mul_div_right _ _ hlp, Nat.div_eq_of_lt hml, Nat.zero_add]
  have hrow : ins i (q / 2 ^ lsl) + 2 ^ i < 2 ^ (lz + par) := by
    have h1 : q / 2 ^ lsl < 2 ^ lz * 2 ^ (par - 1 - i) * 2 ^ i := by
      rw [Nat.div_lt_iff_lt_mul hlp]; exact hq
    have h3 : q / 2 ^ lsl / 2 ^ i < 2 ^ lz * 2 ^ (par - 1 - i) := by
      rw [Nat.div_lt_iff_lt_mul hip]; exact h1
    have h4 := Nat.mul_le_mul_right (2 ^ (i + 1)) h3
    rw [Nat.succ_mul, ← Nat.pow_add, ← Nat.pow_add, show lz + (par - 1 - i) + (i + 1) = lz + par by omega] at h4
    have h5 := Nat.mod_lt (q / 2 ^ lsl) hip
    have h6 : 2 ^ (i + 1) = 2 ^ i + 2 ^ i := by rw [Nat.pow_succ]; omega
    unfold ins
    omega
  have hb : cellA lw lsl st i q + 2 ^ (lw + i) < 2 ^ (lw + (lz + par)) := by
    have h1 := Nat.mul_le_mul_right (2 ^ lw) hrow
    rw [Nat.succ_mul, Nat.add_mul, ← Nat.pow_add, ← Nat.pow_add, Nat.add_comm i lw, Nat.add_comm (lz + par) lw] at h1
    unfold cellA
    omega
  refine ⟨hA', ?_, lt_of_le_of_lt (Nat.le_add_right _ _) hb, hb⟩
  dsimp only
  rw [(row_col_add (lw := lw) (i := i)).2, hA']

/-- The column phase, for every interleaving of the programs. -/
theorem runColumns_layers (bf : F → Lanes F → Lanes F → Lanes F × Lanes F) {lw lz par h lsl : Nat}
    {tw : Nat → Nat → F} {rounds : List Nat} (hrounds : ∀ i ∈ rounds, i < par) (hl : lsl ≤ lw) (hh : h ≤ lz + par)
    (hh' : 0 < par → h = lz + par) {cols : ColSchedule F}
    (hc : Interleaves cols ((List.range (2 ^ (lw - lsl))).map fun st =>
      rounds.flatMap (roundOps lw lz par lsl st tw))) {d : Slice (Lanes F)} (hd : d.size = 2 ^ (lw + h)) :
    ∃ d', runColumns bf cols d = some d' ∧ d'.size = d.size ∧ ∀ e < d.size,
      d'.val e = elemLayers bf lw (fun i m => tw i (m % 2 ^ (par - 1 - i))) rounds d.val e := by
  obtain ⟨hlen, hint⟩ := hc
  rw [List.length_map, List.length_range] at hlen
  have hprog : ∀ st < 2 ^ (lw - lsl), (cols.filter (·.1 = st)).map (·.2) =
      rounds.flatMap (roundOps lw lz par lsl st tw) := by
    intro st hst
    refine hint st _ ?_
    rw [List.getElem?_map, List.getElem?_range hst]
    rfl
  have hops : ∀ o ∈ cols, ∃ i < par, o.2 ∈ roundOps lw lz par lsl o.1 tw i := by
    intro o ho
    have : o.2 ∈ (cols.filter (·.1 = o.1)).map (·.2) :=
      List.mem_map.2 ⟨o, List.mem_filter.2 ⟨ho, by simp⟩, rfl⟩
    rw [hprog _ (hlen o ho)] at this
    obtain ⟨i, hi, hm⟩ := List.mem_flatMap.1 this
    exact ⟨i, hrounds i hi, hm⟩
  have hmem : ∀ o ∈ cols, (o.2.a % 2 ^ lw / 2 ^ lsl = o.1 ∧ o.2.b % 2 ^ lw / 2 ^ lsl = o.1) ∧ o.2.a < d.size ∧
      o.2.b < d.size := by
    intro o ho
    obtain ⟨i, hi, hm⟩ := hops o ho
    obtain ⟨a1, a2, a3, a4⟩ := roundOps_mem hi (stride_le hl (hlen o ho)) hm
    rw [hd, hh' (by omega)]
    exact ⟨⟨a1, a2⟩, a3, a4⟩
  refine ⟨_, runColumns_eq bf cols d fun o ho => (hmem o ho).2, rfl, fun e he => ?_⟩
  dsimp only
  have hreg : e % 2 ^ lw / 2 ^ lsl < 2 ^ (lw - lsl) := by
    rw [Nat.div_lt_iff_lt_mul (Nat.two_pow_pos _), ← Nat.pow_add, show lw - lsl + lsl = lw by omega]
    exact Nat.mod_lt _ (Nat.two_pow_pos _)
  rw [run_region bf (fun e => e % 2 ^ lw / 2 ^ lsl) (e % 2 ^ lw / 2 ^ lsl) cols d.val d.val
    (fun o ho => (hmem o ho).1) (fun _ _ => rfl) e rfl, hprog _ hreg]
  refine stride_eq bf (stride_le hl hreg) rounds hrounds _ _ (fun _ _ _ => rfl) e ?_ rfl
  rw [hd] at he
  exact lt_of_lt_of_le he (Nat.pow_le_pow_right (by omega) (by omega))

/-! ### From packed elements to scalars -/

/-- The scalars of the contents. -/
def flatF (w : Nat) (g : Nat → Lanes F) (P : Nat) : F := g (P / 2 ^ w) (P % 2 ^ w)

theorem flatF_elemLayer {bf : F → Lanes F → Lanes F → Lanes F × Lanes F} {op : F → F → F → F × F}
    (hbf : ∀ t x y l, (bf t x y).1 l = (op t (x l) (y l)).1 ∧ (bf t x y).2 l = (op t (x l) (y l)).2) (w b : Nat)
    (t : Nat → F) (g : Nat → Lanes F) :
    flatF w (elemLayer bf b t g) = layer op (b + w) t (flatF w g) := by
  funext P
  have hwp := Nat.two_pow_pos w
  have h1 : ∀ c, P / 2 ^ (c + w) = P / 2 ^ w / 2 ^ c := fun c => by
    rw [Nat.add_comm, Nat.pow_add, Nat.div_div_eq_div_mul]
  have h3 : (P + 2 ^ (b + w)) / 2 ^ w = P / 2 ^ w + 2 ^ b := by
    rw [Nat.pow_add, Nat.add_mul_div_right _ _ hwp]
  have h4 : (P + 2 ^ (b + w)) % 2 ^ w = P % 2 ^ w := by
    rw [Nat.pow_add, Nat.add_mul_mod_self_right]
  unfold flatF elemLayer layer
  beta_reduce
  rw [h1, show b + w + 1 = b + 1 + w by omega, h1, h3, h4]
  by_cases hb : P / 2 ^ w / 2 ^ b % 2 = 0
  · rw [if_pos hb, if_pos hb, (hbf _ _ _ _).1]
  · rw [if_neg hb, if_neg hb, (hbf _ _ _ _).2]
    obtain ⟨hle, -, -⟩ := div_sub_pow (p := P) (b := b + w) (by rw [h1]; exact hb)
    have h5 : (P - 2 ^ (b + w)) / 2 ^ w = P / 2 ^ w - 2 ^ b := by
      have h6 := Nat.add_mul_div_right (P - 2 ^ (b + w)) (2 ^ b) hwp
      rw [← Nat.pow_add, Nat.sub_add_cancel hle] at h6
      exact Nat.eq_sub_of_add_eq h6.symm
    have h7 : (P - 2 ^ (b + w)) % 2 ^ w = P % 2 ^ w := by
      conv_rhs => rw [← Nat.sub_add_cancel hle, Nat.pow_add, Nat.add_mul_mod_self_right]
      rw [Nat.pow_add]
    rw [h5, h7]

theorem colFwd_op (t : F) (x y : Lanes F) (l : Nat) :
    (colFwd t x y).1 l = (fwdOp t (x l) (y l)).1 ∧ (colFwd t x y).2 l = (fwdOp t (x l) (y l)).2 := ⟨rfl, rfl⟩

theorem colInv_op (t : F) (x y : Lanes F) (l : Nat) :
    (colInv t x y).1 l = (invOp t (x l) (y l)).1 ∧ (colInv t x y).2 l = (invOp t (x l) (y l)).2 := ⟨rfl, rfl⟩

/-- The rounds of the forward column phase are the first layers. -/
theorem cols_fwd (γ : List F) {w lx ly lz : Nat} {p : Plan} (hp : PlanOk w lx ly lz p) (coset skip : Nat)
    (g : Nat → Lanes F) : ∀ k, k ≤ p.parRounds - skip →
    flatF w (elemLayers colFwd p.logWidth (fun i m => colTw γ p coset i (m % 2 ^ (p.parRounds - 1 - i)))
      ((List.range k).map fun j => p.parRounds - skip - 1 - j) g) =
      fwdLayers γ lx ly coset (ly - skip) (flatF w g) k
  | 0, _ => rfl
  | k + 1, hk => by
    have hr := hp.rounds
    have hs := hp.split
    have hrow := hp.row
    rw [List.range_succ, List.map_append]
    unfold elemLayers
    rw [List.foldl_append, List.map_cons, List.map_nil, List.foldl_cons, List.foldl_nil]
    refine (flatF_elemLayer (F := F) (bf := colFwd) (op := fwdOp) colFwd_op w _ _ _).trans ?_
    have ih := cols_fwd γ hp coset skip g k (by omega)
    unfold elemLayers at ih
    rw [ih, layer_fwd, fwdLayers]
    have ht : (fun m => colTw γ p coset (p.parRounds - skip - 1 - k)
        (m % 2 ^ (p.parRounds - 1 - (p.parRounds - skip - 1 - k)))) = twid γ ly coset (ly - skip - 1 - k) := by
      funext m
      rw [colTw_twid γ hp]
      congr 1
      omega
    beta_reduce
    rw [ht]
    congr 1
    omega

/-- The rounds of the inverse column phase are the last layers. -/
theorem cols_inv (γ : List F) {w lx ly lz : Nat} {p : Plan} (hp : PlanOk w lx ly lz p) (coset skip s : Nat)
    (hs : 0 < p.parRounds - skip → s = p.rowLogY)
    (g : Nat → Lanes F) (g0 : Nat → F)
    (hg : ∀ P < 2 ^ (lx + ly + lz), flatF w g P = invLayers γ lx ly coset g0 s P) : ∀ k, k ≤ p.parRounds - skip →
    ∀ P < 2 ^ (lx + ly + lz),
    flatF w (elemLayers colInv p.logWidth (fun i m => colTw γ p coset i (m % 2 ^ (p.parRounds - 1 - i)))
      (List.range k) g) P = invLayers γ lx ly coset g0 (s + k) P
  | 0, _ => hg
  | k + 1, hk => by
    have hr := hp.rounds
    have hsp := hp.split
    have hrow := hp.row
    have hs := hs (by omega)
    intro P hP
    rw [List.range_succ]
    unfold elemLayers
    rw [List.foldl_append, List.foldl_cons, List.foldl_nil]
    refine (congrFun (flatF_elemLayer (F := F) (bf := colInv) (op := invOp) colInv_op w _ _ _) P).trans ?_
    rw [layer_inv, ← Nat.add_assoc, invLayers]
    have ht : (fun m => colTw γ p coset k (m % 2 ^ (p.parRounds - 1 - k))) = twid γ ly coset (s + k) := by
      funext m
      rw [colTw_twid γ hp, hs, Nat.add_comm]
    beta_reduce
    rw [ht, show p.logWidth + k + w = lx + (s + k) by omega]
    refine invLayer_congr _ (by omega) (fun P hP => ?_) P hP
    exact cols_inv γ hp coset skip s (fun _ => hs) g g0 hg k (by omega) P hP

/-! ### Rows -/

theorem row_twid (γ : List F) {w lx ly lz : Nat} {p : Plan} (hp : PlanOk w lx ly lz p) (coset r i P : Nat)
    (hi : i < p.rowLogY) (hP : P < 2 ^ (p.logWidth + w)) :
    twid γ p.rowLogY (coset * 2 ^ p.parRounds + r % 2 ^ p.parRounds) i (P / 2 ^ (lx + i + 1)) =
      twid γ ly coset i ((r * 2 ^ (p.logWidth + w) + P) / 2 ^ (lx + i + 1)) := by
  obtain ⟨_, hrow, hr, hs, -, -, -⟩ := hp
  have hdiv : (r * 2 ^ (p.logWidth + w) + P) / 2 ^ (lx + i + 1) =
      r * 2 ^ (p.rowLogY + p.logRowZ - 1 - i) + P / 2 ^ (lx + i + 1) := by
    rw [show p.logWidth + w = (p.rowLogY + p.logRowZ - 1 - i) + (lx + i + 1) by omega, Nat.pow_add, ← Nat.mul_assoc,
      Nat.add_comm, Nat.add_mul_div_right _ _ (Nat.two_pow_pos _), Nat.add_comm]
  have hlt : P / 2 ^ (lx + i + 1) < 2 ^ (p.rowLogY + p.logRowZ - 1 - i) := by
    rw [Nat.div_lt_iff_lt_mul (Nat.two_pow_pos _), ← Nat.pow_add,
      show p.rowLogY + p.logRowZ - 1 - i + (lx + i + 1) = p.logWidth + w by omega]
    exact hP
  unfold twid
  rw [hdiv]
  congr 3
  rcases hs with h0 | h0
  · rw [h0, Nat.pow_zero, Nat.mul_one, Nat.mod_one, Nat.add_zero, show p.rowLogY = ly by omega]
    rw [show ly + p.logRowZ - 1 - i = p.logRowZ + (ly - 1 - i) by omega, Nat.pow_add 2 p.logRowZ, ← Nat.mul_assoc, Nat.add_comm (_ * _) (P / _),
      Nat.add_mul_mod_self_right]
  · rw [show p.rowLogY + p.logRowZ - 1 - i = p.rowLogY - 1 - i by omega] at hlt ⊢
    rw [show ly - 1 - i = p.parRounds + (p.rowLogY - 1 - i) by omega, Nat.mod_eq_of_lt hlt]
    have hm : (r * 2 ^ (p.rowLogY - 1 - i) + P / 2 ^ (lx + i + 1)) % 2 ^ (p.parRounds + (p.rowLogY - 1 - i)) =
        r % 2 ^ p.parRounds * 2 ^ (p.rowLogY - 1 - i) + P / 2 ^ (lx + i + 1) := by
      conv_lhs => rw [← Nat.div_add_mod r (2 ^ p.parRounds)]
      rw [Nat.add_mul, Nat.pow_add 2 p.parRounds, Nat.mul_right_comm, Nat.add_assoc, Nat.mul_add_mod]
      refine Nat.mod_eq_of_lt ?_
      have := Nat.mul_le_mul_right (2 ^ (p.rowLogY - 1 - i)) (Nat.mod_lt r (Nat.two_pow_pos p.parRounds))
      rw [Nat.succ_mul] at this
      omega
    rw [hm, Nat.pow_add 2 p.parRounds, Nat.add_mul, Nat.mul_assoc, Nat.add_assoc]

theorem row_layer (op : F → F → F → F × F) {n b r P : Nat} (hb : b < n) (hP : P < 2 ^ n) {t t' g g' : Nat → F}
    (ht : t (P / 2 ^ (b + 1)) = t' ((r * 2 ^ n + P) / 2 ^ (b + 1))) (hg : ∀ P < 2 ^ n, g P = g' (r * 2 ^ n + P)) :
    layer op b t g P = layer op b t' g' (r * 2 ^ n + P) := by
  have hdiv : (r * 2 ^ n + P) / 2 ^ b % 2 = P / 2 ^ b % 2 := by
    rw [show n = (n - b - 1) + 1 + b by omega, Nat.pow_add _ _ b, ← Nat.mul_assoc, Nat.add_comm,
      Nat.add_mul_div_right _ _ (Nat.two_pow_pos _), Nat.pow_succ, ← Nat.mul_assoc, Nat.add_mul_mod_self_right]
  unfold layer
  rw [hdiv, ht]
  by_cases h0 : P / 2 ^ b % 2 = 0
  · have hlt : P + 2 ^ b < 2 ^ n := by
      have a0 : 2 ^ n = 2 ^ (n - b - 1) * 2 * 2 ^ b := by rw [← Nat.pow_succ, ← Nat.pow_add]; congr 1; omega
      have a1 : P / 2 ^ b < 2 ^ (n - b - 1) * 2 := by
        rw [Nat.div_lt_iff_lt_mul (Nat.two_pow_pos _), ← a0]; exact hP
      have a2 : (P + 2 ^ b) / 2 ^ b < 2 ^ (n - b - 1) * 2 := by
        rw [Nat.add_div_right _ (Nat.two_pow_pos _)]; omega
      rw [Nat.div_lt_iff_lt_mul (Nat.two_pow_pos _), ← a0] at a2
      exact a2
    rw [if_pos h0, if_pos h0, hg P hP, hg _ hlt, Nat.add_assoc]
  · obtain ⟨hle, -, -⟩ := div_sub_pow h0
    rw [if_neg h0, if_neg h0, hg P hP, hg _ (lt_of_le_of_lt (Nat.sub_le _ _) hP), Nat.add_sub_assoc hle]

theorem row_fwd (γ : List F) {w lx ly lz : Nat} {p : Plan} (hp : PlanOk w lx ly lz p) (coset r s : Nat)
    (hs : s ≤ p.rowLogY) (G : Nat → F) : ∀ k, k ≤ s → ∀ P < 2 ^ (p.logWidth + w),
    fwdLayers γ lx p.rowLogY (coset * 2 ^ p.parRounds + r % 2 ^ p.parRounds) s
        (fun P => G (r * 2 ^ (p.logWidth + w) + P)) k P =
      fwdLayers γ lx ly coset s G k (r * 2 ^ (p.logWidth + w) + P)
  | 0, _ => fun _ _ => rfl
  | k + 1, hk => by
    intro P hP
    have hrow := hp.row
    rw [fwdLayers, fwdLayers, ← layer_fwd]
    exact row_layer fwdOp (by omega) hP (row_twid γ hp coset r _ P (by omega) hP)
      (row_fwd γ hp coset r s hs G k (by omega))

theorem row_inv (γ : List F) {w lx ly lz : Nat} {p : Plan} (hp : PlanOk w lx ly lz p) (coset r : Nat)
    (G : Nat → F) : ∀ k, k ≤ p.rowLogY → ∀ P < 2 ^ (p.logWidth + w),
    invLayers γ lx p.rowLogY (coset * 2 ^ p.parRounds + r % 2 ^ p.parRounds)
        (fun P => G (r * 2 ^ (p.logWidth + w) + P)) k P =
      invLayers γ lx ly coset G k (r * 2 ^ (p.logWidth + w) + P)
  | 0, _ => fun _ _ => rfl
  | k + 1, hk => by
    intro P hP
    have hrow := hp.row
    rw [invLayers, invLayers, ← layer_inv]
    exact row_layer invOp (by omega) hP (row_twid γ hp coset r _ P (by omega) hP)
      (row_inv γ hp coset r G k (by omega))

theorem fwdLayers_append (γ : List F) (lx ly coset s a : Nat) (g : Nat → F) : ∀ k,
    fwdLayers γ lx ly coset (s - a) (fwdLayers γ lx ly coset s g a) k = fwdLayers γ lx ly coset s g (a + k)
  | 0 => rfl
  | k + 1 => by
    rw [fwdLayers, fwdLayers_append γ lx ly coset s a g k, ← Nat.add_assoc, fwdLayers,
      show s - a - 1 - k = s - 1 - (a + k) by omega]

/-- The row phase in any order. -/
theorem runRows_eq {st : Slice (Lanes F) → Shape → Nat → Nat → Nat → Option (Except Error (Slice (Lanes F)))}
    {shape : Shape} {coset cb skip w : Nat} {p : Plan} {R : Nat → (Nat → F) → Nat → F}
    (hRc : ∀ r g g', (∀ P < 2 ^ (p.logWidth + w), g P = g' P) → ∀ P < 2 ^ (p.logWidth + w), R r g P = R r g' P)
    (hst : ∀ r (c : Slice (Lanes F)), c.size = 2 ^ p.logWidth → ∃ c', st c ⟨shape.logX, p.rowLogY, p.logRowZ⟩
      ((coset <<< p.parRounds) ||| (r % 2 ^ p.parRounds)) (cb + p.parRounds) (skip - p.parRounds) = some (.ok c') ∧
      ∀ P < 2 ^ (p.logWidth + w), flat w c' P = R r (flat w c) P) :
    ∀ (rs : List Nat), rs.Nodup → ∀ d : Slice (Lanes F),
      ∃ d', runRows st shape coset cb skip p rs d = some (.ok d') ∧ d'.size = d.size ∧
        (∀ e, e / 2 ^ p.logWidth ∉ rs → d'.val e = d.val e) ∧
        ∀ r ∈ rs, ∀ P < 2 ^ (p.logWidth + w), flat w d' (r * 2 ^ (p.logWidth + w) + P) =
          R r (fun P => flat w d (r * 2 ^ (p.logWidth + w) + P)) P
  | [], _, d => ⟨d, rfl, rfl, fun _ _ => rfl, by simp⟩
  | r :: rs, hnd, d => by
    rw [List.nodup_cons] at hnd
    have hwp := Nat.two_pow_pos w
    have hlp := Nat.two_pow_pos p.logWidth
    have hidx : ∀ r P, P < 2 ^ (p.logWidth + w) → (r * 2 ^ (p.logWidth + w) + P) / 2 ^ w = r * 2 ^ p.logWidth + P / 2 ^ w ∧
        (r * 2 ^ (p.logWidth + w) + P) % 2 ^ w = P % 2 ^ w ∧ P / 2 ^ w < 2 ^ p.logWidth := by
      intro r P hP
      refine ⟨?_, ?_, ?_⟩
      · rw [Nat.pow_add, ← Nat.mul_assoc, Nat.add_comm, Nat.add_mul_div_right _ _ hwp, Nat.add_comm]
      · rw [Nat.pow_add, ← Nat.mul_assoc, Nat.add_comm, Nat.add_mul_mod_self_right]
      · rw [Nat.div_lt_iff_lt_mul hwp, ← Nat.pow_add]; exact hP
    have hrow : ∀ r e, e < 2 ^ p.logWidth → (r * 2 ^ p.logWidth + e) / 2 ^ p.logWidth = r ∧
        (r * 2 ^ p.logWidth + e) % 2 ^ p.logWidth = e := by
      intro r e he
      rw [Nat.add_comm, Nat.add_mul_div_right _ _ hlp, Nat.add_mul_mod_self_right, Nat.div_eq_of_lt he,
        Nat.mod_eq_of_lt he, Nat.zero_add]
      exact ⟨rfl, rfl⟩
    obtain ⟨c', hc', hcP⟩ := hst r ⟨2 ^ p.logWidth, fun e => d.val (r * 2 ^ p.logWidth + e)⟩ rfl
    obtain ⟨d', hd', hsz, hout, hin⟩ := runRows_eq hRc hst rs hnd.2
      ⟨d.size, fun e => if e / 2 ^ p.logWidth = r then c'.val (e % 2 ^ p.logWidth) else d.val e⟩
    refine ⟨d', ?_, hsz, fun e he => ?_, fun r' hr' P hP => ?_⟩
    · unfold runRows rowTask
      rw [hc']
      exact hd'
    · rw [List.mem_cons, not_or] at he
      rw [hout e he.2]
      dsimp only
      rw [if_neg he.1]
    · obtain ⟨i1, i2, i3⟩ := hidx r' P hP
      obtain ⟨r1, r2⟩ := hrow r' _ i3
      rcases List.mem_cons.1 hr' with rfl | hr2
      · have : flat w d' (r' * 2 ^ (p.logWidth + w) + P) = flat w c' P := by
          unfold flat
          rw [i1, i2, hout _ (by rw [r1]; exact hnd.1)]
          dsimp only
          rw [if_pos r1, r2]
        rw [this, hcP P hP]
        refine hRc _ _ _ (fun P hP => ?_) P hP
        obtain ⟨i1, i2, i3⟩ := hidx r' P hP
        unfold flat
        dsimp only
        rw [i1, i2]
      · rw [hin r' hr2 P hP]
        refine hRc _ _ _ (fun P hP => ?_) P hP
        obtain ⟨i1, i2, i3⟩ := hidx r' P hP
        obtain ⟨r1, r2⟩ := hrow r' _ i3
        unfold flat
        dsimp only
        rw [i1, i2, if_neg]
        rw [r1]
        rintro rfl
        exact hnd.1 hr2

/-! ### The programs of the two transforms -/

theorem strideFwd_eq {tas : List (TA F)} {lz par coset skip lsl : Nat} {view : View} (g : Nat → List (ColOp F))
    (h : ∀ i < par, ∀ ops, strideRound tas lz par coset lsl view i ops = some (ops ++ g i)) :
    strideFwd tas lz par coset skip lsl view =
      some (((List.range (par - skip)).map fun j => par - skip - 1 - j).flatMap g) := by
  unfold strideFwd forRangeRev
  rw [Nat.sub_zero, forRange_congr (g := fun k ops => some (ops ++ g (par - skip - 1 - k)))
    (fun k hk ops => h _ (by omega) ops), forRange_flatMap, List.nil_append, List.flatMap_map]

theorem strideInv_eq {tas : List (TA F)} {lz par coset skip lsl : Nat} {view : View} (g : Nat → List (ColOp F))
    (h : ∀ i < par, ∀ ops, strideRound tas lz par coset lsl view i ops = some (ops ++ g i)) :
    strideInv tas lz par coset skip lsl view = some ((List.range (par - skip)).flatMap g) := by
  unfold strideInv forFromTo
  rw [Nat.sub_zero, forRange_congr (g := fun k ops => some (ops ++ g k))
    (fun k hk ops => by rw [Nat.zero_add]; exact h _ (by omega) ops), forRange_flatMap, List.nil_append]

/-! ### The sequential schedule -/

/-- All programs one after the other. -/
def sequential (progs : List (List (ColOp F))) : ColSchedule F :=
  (List.range progs.length).flatMap fun t => (progs.getD t []).map fun o => (t, o)

theorem filter_flatMap_range (f : Nat → List (ColOp F)) (t : Nat) : ∀ n,
    (((List.range n).flatMap fun s => (f s).map fun o => (s, o)).filter (·.1 = t)).map (·.2) =
      if t < n then f t else []
  | 0 => rfl
  | n + 1 => by
    rw [List.range_succ, List.flatMap_append, List.filter_append, List.map_append, filter_flatMap_range f t n]
    rw [List.flatMap_cons, List.flatMap_nil, List.append_nil]
    by_cases htn : n = t
    · subst htn
      rw [if_neg (lt_irrefl n), if_pos (Nat.lt_succ_self n), List.filter_eq_self.2, List.map_map, List.nil_append]
      · exact List.map_id'' (fun _ => rfl) _
      · intro o ho
        obtain ⟨o', -, rfl⟩ := List.mem_map.1 ho
        simp
    · rw [List.filter_eq_nil_iff.2]
      · by_cases h : t < n
        · rw [if_pos h, if_pos (by omega)]; simp
        · rw [if_neg h, if_neg (by omega)]; simp
      · intro o ho
        obtain ⟨o', -, rfl⟩ := List.mem_map.1 ho
        simpa using htn

theorem sequential_interleaves (progs : List (List (ColOp F))) : Interleaves (sequential progs) progs := by
  refine ⟨fun o ho => ?_, fun t prog h => ?_⟩
  · obtain ⟨t, ht, ho⟩ := List.mem_flatMap.1 ho
    obtain ⟨o', -, rfl⟩ := List.mem_map.1 ho
    exact List.mem_range.1 ht
  · have ht : t < progs.length := by
      by_contra hc
      rw [List.getElem?_eq_none (by omega)] at h
      simp at h
    unfold sequential
    rw [filter_flatMap_range (fun s => progs.getD s []), if_pos ht]
    rw [List.getD_eq_getElem?_getD, h]
    rfl

/-! ### The whole transforms -/

/-- What remains when the sizes allow a plan. -/
theorem size_of_plan {L w lx ly lz coset cb skip t size : Nat} {p : Plan}
    (hok : check L size w ⟨lx, ly, lz⟩ coset cb skip = .ok ()) (h1 : size ≠ 1)
    (hplan : plan w ⟨lx, ly, lz⟩ t = some p) : size = 2 ^ (p.logWidth + p.logHeight) := by
  obtain ⟨hpow, -, hso, -, -⟩ := check_ok.1 hok
  have hp := plan_ok hplan
  have ht := hp.total
  have hw := hp.width
  rw [sizeOk_two hpow h1 hso, ← Nat.pow_succ']
  congr 1
  omega

theorem row_check {L w lx ly lz coset cb skip : Nat} {p : Plan} (hp : PlanOk w lx ly lz p) (hskip : skip ≤ ly)
    (hcos : coset < 2 ^ cb) (hdom : ly + cb ≤ L) (r : Nat) :
    check L (2 ^ p.logWidth) w ⟨lx, p.rowLogY, p.logRowZ⟩ ((coset <<< p.parRounds) ||| (r % 2 ^ p.parRounds))
      (cb + p.parRounds) (skip - p.parRounds) = .ok () := by
  have hr := hp.rounds
  refine check_ok.2 ⟨⟨_, rfl⟩, by omega, Or.inl ?_, ?_, by omega⟩
  · rw [← Nat.pow_add, ← hp.row]
  · have hm := Nat.mod_lt r (Nat.two_pow_pos p.parRounds)
    rw [shl_or hm]
    have := Nat.mul_le_mul_right (2 ^ p.parRounds) hcos
    rw [Nat.succ_mul, ← Nat.pow_add] at this
    omega

theorem split_pos {w lx ly lz P : Nat} {p : Plan} (hp : PlanOk w lx ly lz p) (hP : P < 2 ^ (lx + ly + lz)) :
    P / 2 ^ (p.logWidth + w) < 2 ^ p.logHeight ∧ P % 2 ^ (p.logWidth + w) < 2 ^ (p.logWidth + w) ∧
      P / 2 ^ (p.logWidth + w) * 2 ^ (p.logWidth + w) + P % 2 ^ (p.logWidth + w) = P := by
  refine ⟨?_, Nat.mod_lt _ (Nat.two_pow_pos _), Nat.div_add_mod' _ _⟩
  rw [Nat.div_lt_iff_lt_mul (Nat.two_pow_pos _), ← Nat.pow_add, Nat.add_comm, hp.total]
  exact hP

theorem mtForward_eq (h2 : (1 : F) + 1 = 0) {w : Nat} {tas : List (TA F)} {β : List F} (hr : Ready tas β)
    (hind : Independent β) {lx ly lz coset cb skip t : Nat} {d : Slice (Lanes F)}
    (hok : check β.length d.size w ⟨lx, ly, lz⟩ coset cb skip = .ok ()) (h1 : d.size ≠ 1) {p : Plan}
    (hplan : plan w ⟨lx, ly, lz⟩ t = some p) {cols : ColSchedule F} {rows : List Nat}
    (hs : Possible strideFwd β.length w tas t d.size ⟨lx, ly, lz⟩ coset cb skip cols rows) :
    ∃ d', mtForward β.length w tas t d ⟨lx, ly, lz⟩ coset cb skip cols rows = some (.ok d') ∧ d'.size = d.size ∧
      ∀ P < 2 ^ (lx + ly + lz), flat w d' P =
        fwdLayers (domainBasis β (ly + cb)) lx ly coset (ly - skip) (flat w d) (ly - skip) P := by
  obtain ⟨hpow, hskip, hso, hcos, hdom⟩ := check_ok.1 hok
  have hp := plan_ok hplan
  have hsize := size_of_plan hok h1 hplan
  have hrd := hp.rounds
  have hrw := hp.row
  obtain ⟨⟨progs, hprogs, hint⟩, hperm⟩ := hs p hplan
  rw [columnPrograms_eq h2 hr hind hcos hdom hp (fun _ _ _ g hg => strideFwd_eq g hg) hsize] at hprogs
  obtain rfl := Option.some.inj hprogs
  obtain ⟨γ, hγ⟩ : ∃ γ, γ = domainBasis β (ly + cb) := ⟨_, rfl⟩
  rw [← hγ] at hint ⊢
  obtain ⟨d1, e1, hs1, hv1⟩ := runColumns_layers colFwd
    (fun i hi => by obtain ⟨j, hj, rfl⟩ := List.mem_map.1 hi; rw [List.mem_range] at hj; omega) (by omega)
    hp.height hp.height' hint hsize
  have hf1 : ∀ P < 2 ^ (lx + ly + lz), flat w d1 P =
      fwdLayers γ lx ly coset (ly - skip) (flat w d) (p.parRounds - skip) P := by
    intro P hP
    have he : P / 2 ^ w < d.size := by
      rw [hsize, Nat.div_lt_iff_lt_mul (Nat.two_pow_pos _), ← Nat.pow_add]
      rwa [show p.logWidth + p.logHeight + w = lx + ly + lz by have := hp.total; omega]
    have := congrFun (cols_fwd γ hp coset skip d.val (p.parRounds - skip) le_rfl) P
    refine Eq.trans ?_ this
    unfold flat flatF
    rw [hv1 _ he]
  obtain ⟨d2, e2, hs2, -, hv2⟩ := runRows_eq (w := w) (p := p)
    (st := fun c sh co cb sk => forward β.length w tas c sh co cb sk) (shape := ⟨lx, ly, lz⟩) (coset := coset)
    (cb := cb) (skip := skip)
    (R := fun r g => fwdLayers γ lx p.rowLogY (coset * 2 ^ p.parRounds + r % 2 ^ p.parRounds)
      (p.rowLogY - (skip - p.parRounds)) g (p.rowLogY - (skip - p.parRounds)))
    (fun r g g' h => fwdLayers_congr (by omega) h _ le_rfl) (fun r c hc => by
      obtain ⟨c', ec, -, hv⟩ := forward_eq (d := c) (w := w) h2 hr hind (by rw [hc]; exact row_check hp hskip hcos hdom r)
      refine ⟨c', ec, fun P hP => ?_⟩
      rw [hv P (by rw [hrw]; exact hP), shl_or (Nat.mod_lt _ (Nat.two_pow_pos _)),
        show p.rowLogY + (cb + p.parRounds) = ly + cb by omega, ← hγ])
    rows (hperm.nodup_iff.2 List.nodup_range) d1
  refine ⟨d2, ?_, hs2.trans hs1, fun P hP => ?_⟩
  · unfold mtForward
    rw [hok]
    dsimp only
    rw [if_neg (by rw [hsize]; exact (Nat.two_pow_pos _).ne'), if_neg h1, hplan, Option.bind_some, e1, Option.bind_some]
    exact e2
  · obtain ⟨q1, q2, q3⟩ := split_pos hp hP
    rw [← q3, hv2 _ (hperm.mem_iff.2 (List.mem_range.2 q1)) _ q2, row_fwd γ hp coset _ _ (by omega) _ _ le_rfl _ q2, q3,
      fwdLayers_congr (n := lx + ly + lz) (by omega) hf1 _ le_rfl P hP,
      show p.rowLogY - (skip - p.parRounds) = ly - skip - (p.parRounds - skip) by omega, fwdLayers_append,
      show p.parRounds - skip + (ly - skip - (p.parRounds - skip)) = ly - skip by omega]

theorem mtInverse_eq (h2 : (1 : F) + 1 = 0) {w : Nat} {tas : List (TA F)} {β : List F} (hr : Ready tas β)
    (hind : Independent β) {lx ly lz coset cb skip t : Nat} {d : Slice (Lanes F)}
    (hok : check β.length d.size w ⟨lx, ly, lz⟩ coset cb skip = .ok ()) (h1 : d.size ≠ 1) {p : Plan}
    (hplan : plan w ⟨lx, ly, lz⟩ t = some p) {cols : ColSchedule F} {rows : List Nat}
    (hs : Possible strideInv β.length w tas t d.size ⟨lx, ly, lz⟩ coset cb skip cols rows) :
    ∃ d', mtInverse β.length w tas t d ⟨lx, ly, lz⟩ coset cb skip cols rows = some (.ok d') ∧ d'.size = d.size ∧
      ∀ P < 2 ^ (lx + ly + lz), flat w d' P =
        invLayers (domainBasis β (ly + cb)) lx ly coset (flat w d) (ly - skip) P := by
  obtain ⟨hpow, hskip, hso, hcos, hdom⟩ := check_ok.1 hok
  have hp := plan_ok hplan
  have hsize := size_of_plan hok h1 hplan
  have hrd := hp.rounds
  have hrw := hp.row
  obtain ⟨⟨progs, hprogs, hint⟩, hperm⟩ := hs p hplan
  rw [columnPrograms_eq h2 hr hind hcos hdom hp (fun _ _ _ g hg => strideInv_eq g hg) hsize] at hprogs
  obtain rfl := Option.some.inj hprogs
  obtain ⟨γ, hγ⟩ : ∃ γ, γ = domainBasis β (ly + cb) := ⟨_, rfl⟩
  rw [← hγ] at hint ⊢
  obtain ⟨d1, e1, hs1, -, hv1⟩ := runRows_eq (w := w) (p := p)
    (st := fun c sh co cb sk => inverse β.length w tas c sh co cb sk) (shape := ⟨lx, ly, lz⟩) (coset := coset)
    (cb := cb) (skip := skip)
    (R := fun r g => invLayers γ lx p.rowLogY (coset * 2 ^ p.parRounds + r % 2 ^ p.parRounds) g
      (p.rowLogY - (skip - p.parRounds)))
    (fun r g g' h => invLayers_congr (s := p.rowLogY) (by omega) h _ (by omega)) (fun r c hc => by
      obtain ⟨c', ec, -, hv⟩ := inverse_eq (d := c) (w := w) h2 hr hind (by rw [hc]; exact row_check hp hskip hcos hdom r)
      refine ⟨c', ec, fun P hP => ?_⟩
      rw [hv P (by rw [hrw]; exact hP), shl_or (Nat.mod_lt _ (Nat.two_pow_pos _)),
        show p.rowLogY + (cb + p.parRounds) = ly + cb by omega, ← hγ])
    rows (hperm.nodup_iff.2 List.nodup_range) d
  have hf1 : ∀ P < 2 ^ (lx + ly + lz), flatF w d1.val P =
      invLayers γ lx ly coset (flat w d) (p.rowLogY - (skip - p.parRounds)) P := by
    intro P hP
    obtain ⟨q1, q2, q3⟩ := split_pos hp hP
    show flat w d1 P = _
    rw [← q3, hv1 _ (hperm.mem_iff.2 (List.mem_range.2 q1)) _ q2, row_inv γ hp coset _ _ _ (by omega) _ q2]
  obtain ⟨d2, e2, hs2, hv2⟩ := runColumns_layers (d := d1) colInv
    (fun i hi => by rw [List.mem_range] at hi; omega) (by omega) hp.height hp.height' hint (hs1.trans hsize)
  refine ⟨d2, ?_, hs2.trans hs1, fun P hP => ?_⟩
  · unfold mtInverse
    rw [hok]
    dsimp only
    rw [if_neg (by rw [hsize]; exact (Nat.two_pow_pos _).ne'), if_neg h1, hplan, Option.bind_some, e1, Option.bind_some]
    dsimp only
    rw [e2]
    rfl
  · have he : P / 2 ^ w < d1.size := by
      rw [hs1, hsize, Nat.div_lt_iff_lt_mul (Nat.two_pow_pos _), ← Nat.pow_add]
      rwa [show p.logWidth + p.logHeight + w = lx + ly + lz by have := hp.total; omega]
    have := cols_inv γ hp coset skip _ (fun _ => by omega) d1.val (flat w d) hf1 (p.parRounds - skip) le_rfl P hP
    rw [show p.rowLogY - (skip - p.parRounds) + (p.parRounds - skip) = ly - skip by omega] at this
    refine Eq.trans ?_ this
    unfold flat flatF
    rw [hv2 _ he]

end Verif.NTT
