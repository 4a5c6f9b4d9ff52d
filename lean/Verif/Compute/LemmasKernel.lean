import Verif.Compute.LemmasMemory
import Verif.Compute.ModelKernel
import Mathlib.Tactic.Ring
import Mathlib.Algebra.BigOperators.Group.List.Lemmas

/-! Lemmas on the launch of kernels. -/

namespace Verif.Compute.Kernel

variable {F E R : Type}

/-! ### Totals -/

section totals
variable [AddCommMonoid F]

theorem addVec_nil (a : List F) : addVec a [] = a := by cases a <;> rfl

theorem addVec_length (a b : List F) : (addVec a b).length = max a.length b.length := by
  induction a generalizing b with
  | nil => simp [addVec]
  | cons x xs ih => cases b with
    | nil => simp [addVec]
    | cons y ys => simp only [addVec, List.length_cons, ih]; omega

theorem addVec_getD (a b : List F) (j : Nat) : (addVec a b).getD j 0 = a.getD j 0 + b.getD j 0 := by
  induction a generalizing b j with
  | nil => simp [addVec]
  | cons x xs ih => cases b with
    | nil => simp [addVec]
    | cons y ys => cases j with
      | zero => simp [addVec]
      | succ j => simpa [addVec] using ih ys j

theorem isTotal_nil : IsTotal ([] : List (Except E (List F))) (.ok []) := ⟨[], rfl, rfl, by simp⟩

theorem isTotal_single (r : Except E (List F)) : IsTotal [r] r := by
  cases r with
  | error e => exact ⟨[], [], rfl, by simp⟩
  | ok v => exact ⟨[v], rfl, by simp, by simp⟩

theorem foldr_max_append (a b : List Nat) : (a ++ b).foldr max 0 = max (a.foldr max 0) (b.foldr max 0) := by
  induction a with
  | nil => simp
  | cons x xs ih => simp only [List.cons_append, List.foldr_cons, ih]; omega

theorem isTotal_append {as bs : List (Except E (List F))} {a b : Except E (List F)} (ha : IsTotal as a)
    (hb : IsTotal bs b) : IsTotal (as ++ bs) (combine addVec a b) := by
  cases a with
  | error e =>
    obtain ⟨pre, post, h, hp⟩ := ha
    exact ⟨pre, post ++ bs, by rw [h]; simp, hp⟩
  | ok u =>
    obtain ⟨us, h1, h2, h3⟩ := ha
    cases b with
    | error e =>
      obtain ⟨pre, post, h, hp⟩ := hb
      refine ⟨as ++ pre, post, by rw [h]; simp, ?_⟩
      intro r hr
      rcases List.mem_append.1 hr with hr | hr
      · rw [h1] at hr
        obtain ⟨v, _, rfl⟩ := List.mem_map.1 hr
        exact ⟨v, rfl⟩
      · exact hp r hr
    | ok v =>
      obtain ⟨vs, g1, g2, g3⟩ := hb
      refine ⟨us ++ vs, by rw [h1, g1, List.map_append], ?_, ?_⟩
      · rw [List.map_append, foldr_max_append, ← h2, ← g2, addVec_length]
      · intro j
        rw [List.map_append, List.sum_append, ← h3, ← g3, addVec_getD]

theorem isTotal_unique {rs : List (Except E (List F))} {a b : Except E (List F)} (ha : IsTotal rs a)
    (hb : IsTotal rs b) : a = b := by
  have key : ∀ {rs : List (Except E (List F))} {e : E} {r}, IsTotal rs (.error e) → IsTotal rs r → r = .error e := by
    intro rs e r ha hb
    obtain ⟨pre, post, h, hp⟩ := ha
    cases r with
    | ok v =>
      obtain ⟨vs, h1, _⟩ := hb
      have : (.error e : Except E (List F)) ∈ vs.map .ok := by rw [← h1, h]; simp
      obtain ⟨_, _, h⟩ := List.mem_map.1 this
      cases h
    | error e' =>
      obtain ⟨pre', post', h', hp'⟩ := hb
      rw [h] at h'
      rcases List.append_eq_append_iff.1 h' with ⟨t, h1, h2⟩ | ⟨t, h1, h2⟩
      · cases t with
        | nil => simp at h2; rw [h2.1]
        | cons x xs =>
          simp only [List.cons_append, List.cons.injEq] at h2
          obtain ⟨v, hv⟩ := hp' x (by rw [h1]; simp)
          rw [← h2.1] at hv; cases hv
      · cases t with
        | nil => simp at h2; rw [h2.1]
        | cons x xs =>
          simp only [List.cons_append, List.cons.injEq] at h2
          obtain ⟨v, hv⟩ := hp x (by rw [h1]; simp)
          rw [← h2.1] at hv; cases hv
  cases a with
  | error e => exact (key ha hb).symm
  | ok u => cases b with
    | error e => exact key hb ha
    | ok v =>
      obtain ⟨us, h1, h2, h3⟩ := ha
      obtain ⟨vs, g1, g2, g3⟩ := hb
      have : us = vs := by
        have hinj : Function.Injective (Except.ok : List F → Except E (List F)) := fun _ _ h => by cases h; rfl
        exact hinj.list_map (h1.symm.trans g1)
      subst this
      have hl : u.length = v.length := h2.trans g2.symm
      congr 1
      refine List.ext_getElem hl fun j hj hj' => ?_
      have := (h3 j).trans (g3 j).symm
      simpa [hj, hj'] using this

/-- The total of a list of results. -/
def total (rs : List (Except E (List F))) : Except E (List F) := rs.foldr (combine addVec) (.ok [])

theorem isTotal_total (rs : List (Except E (List F))) : IsTotal rs (total rs) := by
  induction rs with
  | nil => exact isTotal_nil
  | cons r rs ih => exact isTotal_append (isTotal_single r) ih

theorem isTotal_iff {rs : List (Except E (List F))} {r} : IsTotal rs r ↔ r = total rs :=
  ⟨fun h => isTotal_unique h (isTotal_total rs), fun h => h ▸ isTotal_total rs⟩

theorem total_append (as bs : List (Except E (List F))) : total (as ++ bs) = combine addVec (total as) (total bs) :=
  (isTotal_iff.1 (isTotal_append (isTotal_total as) (isTotal_total bs))).symm

theorem total_single (r : Except E (List F)) : total [r] = r := (isTotal_iff.1 (isTotal_single r)).symm

theorem total_flatMap {ι : Type} (is : List ι) (f : ι → Except E (List F)) (g : ι → List (Except E (List F)))
    (h : ∀ i ∈ is, IsTotal (g i) (f i)) : total (is.flatMap g) = total (is.map f) := by
  induction is with
  | nil => rfl
  | cons i is ih =>
    rw [List.flatMap_cons, total_append, ih fun j hj => h j (List.mem_cons_of_mem _ hj),
      ← isTotal_iff.1 (h i List.mem_cons_self)]
    rfl

theorem foldl_total (rs pre : List (Except E (List F))) (r : Except E (List F)) (h : IsTotal pre r) :
    IsTotal (pre ++ rs) (rs.foldl (combine addVec) r) := by
  induction rs generalizing pre r with
  | nil => simpa using h
  | cons x xs ih =>
    have := ih (pre ++ [x]) _ (isTotal_append h (isTotal_single x))
    simpa using this

end totals

theorem tree_reduce (op : R → R → R) (P : List R → R → Prop) (h1 : ∀ r, P [r] r)
    (h2 : ∀ as bs a b, P as a → P bs b → P (as ++ bs) (op a b)) (t : Tree) (xs : List R) (hx : xs.length = t.leaves) :
    ∃ r, t.reduce op xs = some r ∧ P xs r := by
  induction t generalizing xs with
  | leaf =>
    obtain ⟨x, rfl⟩ := List.length_eq_one_iff.1 hx
    exact ⟨x, rfl, h1 x⟩
  | node l r ihl ihr =>
    rw [Tree.leaves] at hx
    obtain ⟨a, ha, pa⟩ := ihl (xs.take l.leaves) (by rw [List.length_take]; omega)
    obtain ⟨b, hb, pb⟩ := ihr (xs.drop l.leaves) (by rw [List.length_drop]; omega)
    refine ⟨op a b, by rw [Tree.reduce, ha, Option.bind_some, hb]; rfl, ?_⟩
    have := h2 _ _ _ _ pa pb
    rwa [List.take_append_drop] at this

theorem firstError_append {as bs : List (Except E Unit)} {a b : Except E Unit} (ha : FirstError as a)
    (hb : FirstError bs b) : FirstError (as ++ bs) (combine (fun _ _ => ()) a b) := by
  cases a with
  | error e =>
    obtain ⟨pre, post, h, hp⟩ := ha
    exact ⟨pre, post ++ bs, by rw [h]; simp, hp⟩
  | ok u => cases b with
    | error e =>
      obtain ⟨pre, post, h, hp⟩ := hb
      refine ⟨as ++ pre, post, by rw [h]; simp, ?_⟩
      intro r hr
      rcases List.mem_append.1 hr with hr | hr
      · exact ha r hr
      · exact hp r hr
    | ok v =>
      intro r hr
      rcases List.mem_append.1 hr with hr | hr
      · exact ha r hr
      · exact hb r hr

theorem firstError_single (r : Except E Unit) : FirstError [r] r := by
  cases r with
  | error e => exact ⟨[], [], rfl, by simp⟩
  | ok v => intro r hr; rw [List.mem_singleton.1 hr]

/-! ### Chunks -/

/-- The number of chunks fits a mapping. -/
def Fit (w c : Nat) : MemMap F → Prop
  | .chunked d _ => ∃ n, d.length = 2 ^ n ∧ c ≤ n ∧ (w ≤ n - c ∨ c = 0)
  | .chunkedMut d _ => ∃ n, d.length = 2 ^ n ∧ c ≤ n ∧ (w ≤ n - c ∨ c = 0)
  | .scratch l => c ≤ l

theorem pow_mul_sub {c n : Nat} (h : c ≤ n) : 2 ^ c * 2 ^ (n - c) = 2 ^ n := by
  rw [← pow_add]; congr 1; omega

theorem div_pow {c n : Nat} (h : c ≤ n) : 2 ^ n / 2 ^ c = 2 ^ (n - c) := Nat.pow_div h (by omega)

theorem chunkRange_ok {w c n i : Nat} (hc : c ≤ n) (hw : w ≤ n - c ∨ c = 0) (hi : i < 2 ^ c) :
    chunkRange w c i (2 ^ n) = some (i * 2 ^ (n - c), 2 ^ (n - c)) := by
  have hm := pow_mul_sub hc
  have hle : (i + 1) * 2 ^ (n - c) ≤ 2 ^ n := by rw [← hm]; exact Nat.mul_le_mul_right _ hi
  unfold chunkRange
  split
  · rw [strictLog2_eq.2 rfl, Option.bind_some, if_pos hle]
  · rw [div_pow hc]
    simp only [hm, ne_eq, not_true_eq_false, if_false]
    split
    · rename_i h
      have : c = 0 := by
        by_contra h0
        have := Nat.pow_lt_pow_right (a := 2) (by omega) (show n - c < n by omega)
        omega
      subst this
      have : i = 0 := by simpa using hi
      subst this
      simp
    · rename_i h
      have hc0 : c ≠ 0 := by rintro rfl; simp at h
      have h1 : 2 ^ (n - c) % 2 ^ w = 0 := by
        apply Nat.mod_eq_zero_of_dvd
        exact Nat.pow_dvd_pow 2 (by omega)
      have h2 : 2 ^ n % 2 ^ (n - c) = 0 := Nat.mod_eq_zero_of_dvd (Nat.pow_dvd_pow 2 (by omega))
      simp [h1, h2, hle]

theorem chunk_eq {c n i : Nat} {d : List F} (hd : d.length = 2 ^ n) (hc : c ≤ n) :
    chunk c i d = part d (i * 2 ^ (n - c)) (2 ^ (n - c)) := by rw [chunk, part, hd, div_pow hc]

theorem chunk_length {c n i : Nat} {d : List F} (hd : d.length = 2 ^ n) (hc : c ≤ n) (hi : i < 2 ^ c) :
    (chunk c i d).length = 2 ^ (n - c) := by
  rw [chunk_eq hd hc, part, List.length_take, List.length_drop, hd]
  have : (i + 1) * 2 ^ (n - c) ≤ 2 ^ n := by rw [← pow_mul_sub hc]; exact Nat.mul_le_mul_right _ hi
  rw [Nat.add_mul] at this
  omega

theorem overwrite_length {mem new : List F} {s : Nat} (h : s + new.length ≤ mem.length) :
    (overwrite mem s new).length = mem.length := by
  simp only [overwrite, List.length_append, List.length_take, List.length_drop]; omega

theorem part_overwrite_same {mem new : List F} {s : Nat} (h : s + new.length ≤ mem.length) :
    part (overwrite mem s new) s new.length = new := by
  have h1 : (mem.take s).length = s := by rw [List.length_take]; omega
  rw [part, overwrite, List.append_assoc, List.drop_append, h1, List.drop_eq_nil_of_le (by omega)]
  simp

theorem part_overwrite_ne {mem new : List F} {s s' n : Nat} (h : s + new.length ≤ mem.length)
    (hd : s' + n ≤ s ∨ s + new.length ≤ s') : part (overwrite mem s new) s' n = part mem s' n := by
  have h1 : (mem.take s).length = s := by rw [List.length_take]; omega
  refine List.ext_getElem? fun j => ?_
  simp only [part, overwrite, List.getElem?_take, List.getElem?_drop]
  split
  · rename_i hj
    rcases hd with hd | hd
    · rw [List.append_assoc, List.getElem?_append_left (by omega), List.getElem?_take, if_pos (by omega)]
    · rw [List.getElem?_append_right (by simp only [List.length_append]; omega), List.getElem?_drop]
      congr 1
      simp only [List.length_append]; omega
  · rfl

theorem chunk_overwrite {c n i i' : Nat} {d new : List F} (hd : d.length = 2 ^ n) (hc : c ≤ n) (hi : i < 2 ^ c)
    (hn : new.length = 2 ^ (n - c)) :
    (overwrite d (i * 2 ^ (n - c)) new).length = 2 ^ n ∧
    chunk c i' (overwrite d (i * 2 ^ (n - c)) new) = if i' = i then new else chunk c i' d := by
  have hle : i * 2 ^ (n - c) + new.length ≤ d.length := by
    rw [hd, hn, ← pow_mul_sub hc, ← Nat.succ_mul]; exact Nat.mul_le_mul_right _ hi
  have hl := (overwrite_length hle).trans hd
  refine ⟨hl, ?_⟩
  rw [chunk_eq hl hc]
  split
  · rename_i h
    rw [h]
    have := part_overwrite_same hle
    rwa [hn] at this
  · rename_i h
    rw [chunk_eq hd hc]
    refine part_overwrite_ne hle ?_
    rw [hn]
    rcases Nat.lt_or_gt_of_ne h with h | h
    · left
      rw [← Nat.succ_mul]; exact Nat.mul_le_mul_right _ h
    · right
      rw [← Nat.succ_mul]; exact Nat.mul_le_mul_right _ h

theorem parts_eq (s : Nat) : ∀ (m : Nat) (d : List F), d.length = m * s →
    (List.range m).flatMap (fun i => part d (i * s) s) = d
  | 0, d, h => by rw [Nat.zero_mul] at h; rw [List.eq_nil_of_length_eq_zero h]; rfl
  | m + 1, d, h => by
    have h' : d.length = m * s + s := by rw [h, Nat.succ_mul]
    rw [List.range_succ, List.flatMap_append, List.flatMap_singleton]
    have e : (List.range m).flatMap (fun i => part d (i * s) s) = d.take (m * s) := by
      rw [← parts_eq s m (d.take (m * s)) (by rw [List.length_take]; omega)]
      refine List.flatMap_congr fun i hi => ?_
      have hi : i + 1 ≤ m := List.mem_range.1 hi
      have := Nat.mul_le_mul_right s hi
      rw [Nat.succ_mul] at this
      rw [part, part, List.drop_take, List.take_take]
      congr 1
      omega
    have e' : part d (m * s) s = d.drop (m * s) := List.take_of_length_le (by rw [List.length_drop]; omega)
    rw [e, e', List.take_append_drop]

theorem chunks_eq {c n : Nat} {d : List F} (hd : d.length = 2 ^ n) (hc : c ≤ n) :
    (List.range (2 ^ c)).flatMap (fun i => chunk c i d) = d := by
  have := parts_eq (2 ^ (n - c)) (2 ^ c) d (by rw [hd, pow_mul_sub hc])
  exact (List.flatMap_congr fun i _ => chunk_eq hd hc).trans this

/-! ### The number of chunks -/

/-- The chunks are no smaller than asked for. -/
def Coarse (w c : Nat) : MemMap F → Prop
  | .chunked d m => c ≠ 0 → 2 ^ max m w ≤ d.length / 2 ^ c
  | .chunkedMut d m => c ≠ 0 → 2 ^ max m w ≤ d.length / 2 ^ c
  | .scratch _ => True

theorem logChunksEnd_fit {w e : Nat} {m : MemMap F} (h : logChunksEnd w m = some e) {c : Nat} (hc : c ≤ e) :
    Fit w c m ∧ Coarse w c m := by
  have key : ∀ {d : List F} {l : Nat}, (strictLog2 d.length).map (fun n => n - min (max l w) n) = some e →
      (∃ n, d.length = 2 ^ n ∧ c ≤ n ∧ (w ≤ n - c ∨ c = 0)) ∧ (c ≠ 0 → 2 ^ max l w ≤ d.length / 2 ^ c) := by
    intro d l h
    obtain ⟨n, hn, rfl⟩ := Option.map_eq_some_iff.1 h
    rw [strictLog2_eq] at hn
    refine ⟨⟨n, hn, by omega, by omega⟩, fun h0 => ?_⟩
    rw [hn, div_pow (by omega)]
    exact Nat.pow_le_pow_right (by omega) (by omega)
  cases m with
  | chunked d l => exact key h
  | chunkedMut d l => exact key h
  | scratch l =>
    injection h with h
    exact ⟨by simp only [Fit]; omega, trivial⟩

theorem logChunksEnd_some {w : Nat} {m : MemMap F} (h : match m with
    | .chunked d _ => ∃ n, d.length = 2 ^ n
    | .chunkedMut d _ => ∃ n, d.length = 2 ^ n
    | .scratch _ => True) : ∃ e, logChunksEnd w m = some e := by
  cases m with
  | chunked d l => obtain ⟨n, hn⟩ := h; exact ⟨_, by rw [logChunksEnd, strictLog2_eq.2 hn]; rfl⟩
  | chunkedMut d l => obtain ⟨n, hn⟩ := h; exact ⟨_, by rw [logChunksEnd, strictLog2_eq.2 hn]; rfl⟩
  | scratch l => exact ⟨l, rfl⟩

theorem range_fold {w : Nat} : ∀ (ms : List (MemMap F)) (e : Nat), PowersOfTwo ms →
    ∃ e' ≤ e, ms.foldl (rangeStep w) (some (0, e)) = some (0, e') ∧
      (∀ m ∈ ms, ∃ em, logChunksEnd w m = some em ∧ e' ≤ em) ∧
      (e' = e ∨ ∃ m ∈ ms, logChunksEnd w m = some e')
  | [], e, _ => ⟨e, le_refl _, rfl, by simp, Or.inl rfl⟩
  | m :: ms, e, h => by
    obtain ⟨em, hm⟩ := logChunksEnd_some (w := w) (h m List.mem_cons_self)
    obtain ⟨e', he, h1, h2, h3⟩ := range_fold ms (min e em) fun m hm => h m (List.mem_cons_of_mem _ hm)
    refine ⟨e', by omega, ?_, ?_, ?_⟩
    · rw [List.foldl_cons, rangeStep, Option.bind_some, hm]
      simpa using h1
    · intro m' hm'
      rcases List.mem_cons.1 hm' with rfl | hm'
      · exact ⟨em, hm, by omega⟩
      · exact h2 m' hm'
    · rcases h3 with h3 | ⟨m', hm', h3⟩
      · rcases Nat.le_total e em with hle | hle
        · left; omega
        · right; exact ⟨m, List.mem_cons_self, by rw [hm]; congr 1; omega⟩
      · right; exact ⟨m', List.mem_cons_of_mem _ hm', h3⟩

theorem logChunksRange_ok {w : Nat} {maps : List (MemMap F)} (hne : maps ≠ []) (hp : PowersOfTwo maps) :
    ∃ e, logChunksRange w maps = some (some (0, e)) ∧ (∀ c ≤ e, ∀ m ∈ maps, Fit w c m ∧ Coarse w c m) ∧
      ∃ m ∈ maps, logChunksEnd w m = some e := by
  cases maps with
  | nil => exact absurd rfl hne
  | cons m ms =>
    obtain ⟨em, hm⟩ := logChunksEnd_some (w := w) (hp m List.mem_cons_self)
    obtain ⟨e, he, h1, h2, h3⟩ := range_fold (w := w) ms em fun m hm => hp m (List.mem_cons_of_mem _ hm)
    refine ⟨e, by rw [logChunksRange, hm, Option.map_some, h1, Option.map_some], ?_, ?_⟩
    · intro c hc m' hm'
      rcases List.mem_cons.1 hm' with rfl | hm'
      · exact logChunksEnd_fit hm (by omega)
      · obtain ⟨e', h, hle⟩ := h2 m' hm'
        exact logChunksEnd_fit h (by omega)
    · rcases h3 with h3 | ⟨m', hm', h3⟩
      · exact ⟨m, List.mem_cons_self, by rw [hm, h3]⟩
      · exact ⟨m', List.mem_cons_of_mem _ hm', h3⟩

theorem range_fold_none {w : Nat} : ∀ (ms : List (MemMap F)), ms.foldl (rangeStep w) none = none
  | [] => rfl
  | m :: ms => by rw [List.foldl_cons]; exact range_fold_none ms

theorem range_fold_panic {w : Nat} : ∀ (ms : List (MemMap F)) (acc), (∃ m ∈ ms, logChunksEnd w m = none) →
    ms.foldl (rangeStep w) acc = none
  | [], _, h => by simp at h
  | m :: ms, acc, ⟨m', hm', h⟩ => by
    rw [List.foldl_cons]
    rcases List.mem_cons.1 hm' with rfl | hm'
    · have : rangeStep w acc m' = none := by
        rw [rangeStep, h]; cases acc <;> rfl
      rw [this]
      exact range_fold_none ms
    · exact range_fold_panic ms _ ⟨m', hm', h⟩

theorem logChunksRange_panic {w : Nat} {maps : List (MemMap F)} (h : ∃ m ∈ maps, logChunksEnd w m = none) :
    logChunksRange w maps = none := by
  cases maps with
  | nil => simp at h
  | cons m ms =>
    obtain ⟨m', hm', h⟩ := h
    rw [logChunksRange]
    rcases List.mem_cons.1 hm' with rfl | hm'
    · rw [h, Option.map_none, range_fold_none]; rfl
    · rw [range_fold_panic ms _ ⟨m', hm', h⟩]; rfl

end Verif.Compute.Kernel
