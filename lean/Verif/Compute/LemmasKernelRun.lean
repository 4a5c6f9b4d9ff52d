import Verif.Compute.LemmasKernel
import Mathlib.Data.List.Forall2

/-! Lemmas on running kernels. -/

namespace Verif.Compute.Kernel

variable {F E R : Type}

/-- Mappings that differ in the contents of mutable data only. -/
inductive Same : MemMap F → MemMap F → Prop where
  | chunked (d l) : Same (.chunked d l) (.chunked d l)
  | chunkedMut (d d' l) : d'.length = d.length → Same (.chunkedMut d l) (.chunkedMut d' l)
  | scratch (l) : Same (.scratch l) (.scratch l)

abbrev SameAll (a b : List (MemMap F)) : Prop := List.Forall₂ Same a b

theorem Same.refl (m : MemMap F) : Same m m := by cases m <;> constructor; rfl

theorem Same.trans {a b c : MemMap F} (h : Same a b) (h' : Same b c) : Same a c := by
  cases h <;> cases h' <;> constructor
  omega

theorem SameAll.refl : ∀ (ms : List (MemMap F)), SameAll ms ms
  | [] => .nil
  | m :: ms => .cons (Same.refl m) (SameAll.refl ms)

theorem SameAll.trans {a b c : List (MemMap F)} (h : SameAll a b) (h' : SameAll b c) : SameAll a c := by
  induction h generalizing c with
  | nil => cases h'; exact .nil
  | cons h _ ih => cases h' with
    | cons h1 h2 => exact .cons (h.trans h1) (ih h2)

theorem SameAll.length {a b : List (MemMap F)} (h : SameAll a b) : a.length = b.length := List.Forall₂.length_eq h

theorem SameAll.totalLocal {a b : List (MemMap F)} (h : SameAll a b) (c : Nat) : totalLocal c a = totalLocal c b := by
  induction h with
  | nil => rfl
  | cons h _ ih => cases h <;> simp only [Kernel.totalLocal, ih]

theorem SameAll.fit {a b : List (MemMap F)} (h : SameAll a b) {w c : Nat} (hf : ∀ m ∈ a, Fit w c m) :
    ∀ m ∈ b, Fit w c m := by
  induction h with
  | nil => exact hf
  | cons h _ ih =>
    intro m hm
    rcases List.mem_cons.1 hm with rfl | hm
    · have := hf _ List.mem_cons_self
      cases h with
      | chunked => exact this
      | chunkedMut _ _ _ e => simpa only [Fit, e] using this
      | scratch => exact this
    · exact ih (fun m hm => hf m (List.mem_cons_of_mem _ hm)) m hm

section zero
variable [Zero F]

theorem SameAll.clear {a b : List (MemMap F)} (h : SameAll a b) (bufs : List (Buf F)) : clear a bufs = clear b bufs := by
  induction h generalizing bufs with
  | nil => rfl
  | cons h _ ih => cases bufs with
    | nil => cases h <;> rfl
    | cons b bs => cases h <;> simp only [Kernel.clear, ih]

theorem clear_length : ∀ (ms : List (MemMap F)) (bs : List (Buf F)), bs.length = ms.length →
    (clear ms bs).length = ms.length
  | [], _, _ => by simp [clear]
  | m :: ms, [], h => by simp at h
  | m :: ms, b :: bs, h => by
    have := clear_length ms bs (by simpa using h)
    cases m <;> simp [clear, this]

theorem clear_chunkBufs (c i : Nat) : ∀ (ms : List (MemMap F)), clear ms (chunkBufs c i ms) = chunkBufs c i ms
  | [] => rfl
  | m :: ms => by
    have := clear_chunkBufs c i ms
    cases m <;> simp only [chunkBufs, List.map_cons, chunkBuf, clear] at this ⊢ <;> rw [this]
    simp [Buf.data]

theorem clear_fixed : ∀ (ms : List (MemMap F)) (bs bs' : List (Buf F)), bs.map Buf.fixed = bs'.map Buf.fixed →
    (clear ms bs).map Buf.fixed = (clear ms bs').map Buf.fixed
  | [], _, _, _ => by simp [clear]
  | m :: ms, [], [], _ => rfl
  | m :: ms, [], b :: bs, h => by simp at h
  | m :: ms, b :: bs, [], h => by simp at h
  | m :: ms, b :: bs, b' :: bs', h => by
    simp only [List.map_cons, List.cons.injEq] at h
    have ih := clear_fixed ms bs bs' h.2
    cases m with
    | chunked => simp only [clear, List.map_cons, ih, h.1]
    | chunkedMut => simp only [clear, List.map_cons, ih, h.1]
    | scratch =>
      have : b.data.length = b'.data.length := by
        have h1 := h.1
        cases b <;> cases b' <;> simp [Buf.fixed] at h1 <;> simp [Buf.data, h1]
      simp only [clear, List.map_cons, ih, this]

/-- The space a scratchpad takes. -/
theorem alloc_scratch {w c l s len : Nat} (hc : c ≤ l) (hw : 2 ^ w ∣ len) (rest : Nat)
    (hle : (2 ^ (l - c) + rest) * 2 ^ w ≤ len) :
    ∃ h n, alloc w (.slice s len) (2 ^ (l - c)) = .ok h (.slice (s + n) (len - n)) ∧ h.start = s ∧ h.len = 2 ^ (l - c) ∧
      2 ^ (l - c) ≤ n ∧ n ≤ len ∧ 2 ^ w ∣ len - n ∧ rest * 2 ^ w ≤ len - n := by
  have hp := Nat.two_pow_pos w
  have hq := Nat.two_pow_pos (l - c)
  have h1 : 2 ^ (l - c) ≤ 2 ^ (l - c) * 2 ^ w := Nat.le_mul_of_pos_right _ hp
  have h2 : 2 ^ w ≤ 2 ^ (l - c) * 2 ^ w := Nat.le_mul_of_pos_left _ hq
  rw [Nat.add_mul] at hle
  obtain ⟨a1, a2, h, a3, a4, a5⟩ := alloc_ok (w := w) (s := s) (l := len) (n := 2 ^ (l - c)) hw hq (by omega) (by
    rcases Nat.le_total w (l - c) with hh | hh
    · exact Or.inl (Nat.pow_dvd_pow 2 hh)
    · exact Or.inr ⟨_, hh, rfl⟩)
  exact ⟨h, _, a3, a4, a5, le_max_left _ _, a1, Nat.dvd_sub hw a2, by omega⟩

theorem load_ok {w c i : Nat} (hi : i < 2 ^ c) (mem : List F) : ∀ (maps : List (MemMap F)) (s len : Nat),
    (∀ m ∈ maps, Fit w c m) → 2 ^ w ∣ len → totalLocal c maps * 2 ^ w ≤ len → s + len = mem.length →
    ∃ bufs, load w c i mem maps (.slice s len) = some bufs ∧ bufs.length = maps.length ∧
      clear maps bufs = chunkBufs c i maps
  | [], _, _, _, _, _, _ => ⟨[], rfl, rfl, rfl⟩
  | .chunked d l :: ms, s, len, hf, hw, ht, hs => by
    obtain ⟨n, hn, hc, hwn⟩ := hf _ List.mem_cons_self
    obtain ⟨bs, h1, h2, h3⟩ := load_ok hi mem ms s len (fun m hm => hf m (List.mem_cons_of_mem _ hm)) hw ht hs
    refine ⟨_, by rw [load, hn, chunkRange_ok hc hwn hi, Option.bind_some, h1]; rfl, by simp [h2], ?_⟩
    rw [clear, h3, chunkBufs, chunkBufs, List.map_cons, chunkBuf, chunk_eq hn hc]
    simp
  | .chunkedMut d l :: ms, s, len, hf, hw, ht, hs => by
    obtain ⟨n, hn, hc, hwn⟩ := hf _ List.mem_cons_self
    obtain ⟨bs, h1, h2, h3⟩ := load_ok hi mem ms s len (fun m hm => hf m (List.mem_cons_of_mem _ hm)) hw ht hs
    refine ⟨_, by rw [load, hn, chunkRange_ok hc hwn hi, Option.bind_some, h1]; rfl, by simp [h2], ?_⟩
    rw [clear, h3, chunkBufs, chunkBufs, List.map_cons, chunkBuf, chunk_eq hn hc]
    simp
  | .scratch l :: ms, s, len, hf, hw, ht, hs => by
    have hc : c ≤ l := hf _ List.mem_cons_self
    rw [totalLocal] at ht
    obtain ⟨h, n, a1, a2, a3, a4, a5, a6, a7⟩ := alloc_scratch (s := s) hc hw _ ht
    obtain ⟨bs, h1, h2, h3⟩ := load_ok hi mem ms (s + n) (len - n) (fun m hm => hf m (List.mem_cons_of_mem _ hm)) a6 a7
      (by omega)
    refine ⟨_, by rw [load, if_neg (by omega), a1]; simp only [h1, Option.map_some]; rfl, by simp [h2], ?_⟩
    rw [clear, h3, chunkBufs, chunkBufs, List.map_cons, chunkBuf]
    congr 3
    rw [Buf.data, part, List.length_take, List.length_drop, a3, a2]
    omega

theorem store_ok {w c i : Nat} (hi : i < 2 ^ c) : ∀ (maps : List (MemMap F)) (s len : Nat) (mem : List F)
    (bufs : List (Buf F)), (∀ m ∈ maps, Fit w c m) → 2 ^ w ∣ len → totalLocal c maps * 2 ^ w ≤ len →
    s + len = mem.length → bufs.length = maps.length →
    (clear maps bufs).map Buf.fixed = (chunkBufs c i maps).map Buf.fixed →
    (store w c i maps (.slice s len) mem bufs).2.length = mem.length ∧
    SameAll maps (store w c i maps (.slice s len) mem bufs).1 ∧
    ∀ i', chunkBufs c i' (store w c i maps (.slice s len) mem bufs).1 =
      if i' = i then clear maps bufs else chunkBufs c i' maps
  | [], _, _, _, [], _, _, _, _, _, _ => ⟨rfl, .nil, fun i' => by simp [store, chunkBufs, clear]⟩
  | [], _, _, _, b :: bs, _, _, _, _, h, _ => by simp at h
  | m :: ms, _, _, _, [], _, _, _, _, h, _ => by simp at h
  | .chunked d l :: ms, s, len, mem, b :: bs, hf, hw, ht, hs, hl, hx => by
    simp only [clear, chunkBufs, List.map_cons, List.cons.injEq] at hx
    obtain ⟨h1, h2, h3⟩ := store_ok hi ms s len mem bs (fun m hm => hf m (List.mem_cons_of_mem _ hm)) hw ht hs
      (by simpa using hl) hx.2
    refine ⟨h1, .cons (Same.refl _) h2, fun i' => ?_⟩
    have h3 := h3 i'
    simp only [store, chunkBufs, List.map_cons, clear] at h3 ⊢
    rw [h3]
    split
    · rename_i h
      rw [h]
      congr 1
      cases b with
      | ref x => have := hx.1; simp only [Buf.fixed, chunkBuf, Sum.inl.injEq] at this; rw [this]; rfl
      | mutable x => have := hx.1; simp [Buf.fixed, chunkBuf] at this
    · rfl
  | .chunkedMut d l :: ms, s, len, mem, b :: bs, hf, hw, ht, hs, hl, hx => by
    obtain ⟨n, hn, hc, hwn⟩ := hf _ List.mem_cons_self
    simp only [clear, chunkBufs, List.map_cons, List.cons.injEq] at hx
    obtain ⟨h1, h2, h3⟩ := store_ok hi ms s len mem bs (fun m hm => hf m (List.mem_cons_of_mem _ hm)) hw ht hs
      (by simpa using hl) hx.2
    obtain ⟨x, rfl, hxl⟩ : ∃ x, b = .mutable x ∧ x.length = 2 ^ (n - c) := by
      cases b with
      | ref x => have := hx.1; simp [Buf.fixed, chunkBuf] at this
      | mutable x =>
        have := hx.1
        simp only [Buf.fixed, chunkBuf, Sum.inr.injEq, chunk_length hn hc hi] at this
        exact ⟨x, rfl, this⟩
    have ho := fun i' => chunk_overwrite (i' := i') hn hc hi hxl
    have e : store w c i (.chunkedMut d l :: ms) (.slice s len) mem (.mutable x :: bs) =
        (.chunkedMut (overwrite d (i * 2 ^ (n - c)) x) l :: (store w c i ms (.slice s len) mem bs).1,
          (store w c i ms (.slice s len) mem bs).2) := by
      rw [store, hn, chunkRange_ok hc hwn hi]; rfl
    rw [e]
    refine ⟨h1, .cons (.chunkedMut _ _ _ ((ho 0).1.trans hn.symm)) h2, fun i' => ?_⟩
    have h3 := h3 i'
    simp only [chunkBufs, List.map_cons, clear, chunkBuf, (ho i').2] at h3 ⊢
    rw [h3]
    split <;> rfl
  | .scratch l :: ms, s, len, mem, b :: bs, hf, hw, ht, hs, hl, hx => by
    have hc : c ≤ l := hf _ List.mem_cons_self
    rw [totalLocal] at ht
    obtain ⟨h, n, a1, a2, a3, a4, a5, a6, a7⟩ := alloc_scratch (s := s) hc hw _ ht
    simp only [clear, chunkBufs, List.map_cons, List.cons.injEq] at hx
    have hb : b.data.length = 2 ^ (l - c) := by
      have := hx.1
      simpa [Buf.fixed, chunkBuf] using this
    have hlen : (overwrite mem s b.data).length = mem.length := overwrite_length (by omega)
    obtain ⟨h1, h2, h3⟩ := store_ok hi ms (s + n) (len - n) (overwrite mem s b.data) bs
      (fun m hm => hf m (List.mem_cons_of_mem _ hm)) a6 a7 (by omega) (by simpa using hl) hx.2
    have e : store w c i (.scratch l :: ms) (.slice s len) mem (b :: bs) =
        (.scratch l :: (store w c i ms (.slice (s + n) (len - n)) (overwrite mem s b.data) bs).1,
          (store w c i ms (.slice (s + n) (len - n)) (overwrite mem s b.data) bs).2) := by
      rw [store, a1]; simp only [a2]
    rw [e]
    refine ⟨h1.trans hlen, .cons (.scratch l) h2, fun i' => ?_⟩
    have h3 := h3 i'
    simp only [chunkBufs, List.map_cons, clear, chunkBuf, hb] at h3 ⊢
    rw [h3]
    split <;> rfl

/-! ### All kernels -/

/-- What holds when the kernels of the chunks in `D` have run. -/
structure Inv (w c : Nat) (k : Kernel F E R) (maps : List (MemMap F)) (D : List Nat) (s : State F E R) : Prop where
  same : SameAll maps s.maps
  bufs : ∀ i < 2 ^ c, chunkBufs c i s.maps =
    if i ∈ D then clear maps (k c (chunkBufs c i maps)).1 else chunkBufs c i maps
  mems : ∀ t, 2 ^ w ∣ (s.mems t).length
  done : ∀ i, s.done i = if i ∈ D then some (k c (chunkBufs c i maps)).2 else none

theorem grow_length (n : Nat) (mem : List F) : (grow n mem).length = max n mem.length := by
  simp only [grow, List.length_append, List.length_replicate]; omega

theorem chunkBufs_length (c i : Nat) (maps : List (MemMap F)) : (chunkBufs c i maps).length = maps.length := by
  simp [chunkBufs]

theorem typed_length {k : Kernel F E R} (hk : Typed k) (c : Nat) (bufs : List (Buf F)) :
    (k c bufs).1.length = bufs.length := by simpa using congrArg List.length (hk c bufs)

theorem runKernel_inv {w c : Nat} {k : Kernel F E R} {maps : List (MemMap F)} {D : List Nat} {s : State F E R}
    (hk : Typed k) (hg : IgnoresScratch maps k) (hf : ∀ m ∈ maps, Fit w c m) (h : Inv w c k maps D s) {i : Nat} (t : Nat)
    (hi : i < 2 ^ c) (hD : i ∉ D) : ∃ s', runKernel w c k s i t = some s' ∧ Inv w c k maps (i :: D) s' := by
  have hf' := h.same.fit hf
  obtain ⟨mem, hm⟩ : ∃ mem, mem = grow (totalLocal c s.maps * 2 ^ w) (s.mems t) := ⟨_, rfl⟩
  have hlen : mem.length = max (totalLocal c s.maps * 2 ^ w) (s.mems t).length := by rw [hm, grow_length]
  have hdvd : 2 ^ w ∣ mem.length := by
    rw [hlen]
    rcases max_choice (totalLocal c s.maps * 2 ^ w) (s.mems t).length with e | e <;> rw [e]
    · exact Nat.dvd_mul_left _ _
    · exact h.mems t
  have htot : totalLocal c s.maps * 2 ^ w ≤ mem.length := by omega
  obtain ⟨bufs, l1, l2, l3⟩ := load_ok hi mem s.maps 0 mem.length hf' hdvd htot (by omega)
  have hcb : clear maps bufs = chunkBufs c i maps := by
    rw [h.same.clear, l3, h.bufs i hi, if_neg hD]
  obtain ⟨g1, g2⟩ := hg c bufs (chunkBufs c i maps) (l2.trans h.same.length.symm) (chunkBufs_length c i maps)
    (by rw [hcb, clear_chunkBufs])
  obtain ⟨s1, s2, s3⟩ := store_ok hi s.maps 0 mem.length mem (k c bufs).1 hf' hdvd htot (by omega)
    ((typed_length hk c bufs).trans l2) (by rw [← l3]; exact clear_fixed _ _ _ (hk c bufs))
  refine ⟨_, by rw [runKernel]; simp only [← hm]; rw [l1]; rfl, ?_, ?_, ?_, ?_⟩
  · exact h.same.trans s2
  · intro j hj
    rw [s3 j]
    split
    · rename_i e
      subst e
      rw [if_pos List.mem_cons_self, ← h.same.clear, g2]
    · rename_i e
      rw [h.bufs j hj]
      simp [e]
  · intro t'
    dsimp only
    by_cases e : t' = t
    · subst e
      rw [Function.update_self, s1]
      exact hdvd
    · rw [Function.update_of_ne e]
      exact h.mems t'
  · intro j
    dsimp only
    by_cases e : j = i
    · subst e
      rw [Function.update_self, if_pos List.mem_cons_self, g1]
    · rw [Function.update_of_ne e, h.done j]
      simp [e]

theorem runAll_inv {w c : Nat} {k : Kernel F E R} {maps : List (MemMap F)} (hk : Typed k) (hg : IgnoresScratch maps k)
    (hf : ∀ m ∈ maps, Fit w c m) : ∀ (sched : List (Nat × Nat)) (D : List Nat) (s : State F E R), Inv w c k maps D s →
    (∀ p ∈ sched, p.1 < 2 ^ c) → (sched.map Prod.fst).Nodup → (∀ p ∈ sched, p.1 ∉ D) →
    ∃ s' D', runAll w c k s sched = some s' ∧ Inv w c k maps D' s' ∧ ∀ i, i ∈ D' ↔ i ∈ D ∨ i ∈ sched.map Prod.fst
  | [], D, s, h, _, _, _ => ⟨s, D, rfl, h, by simp⟩
  | (i, t) :: sched, D, s, h, h1, h2, h3 => by
    obtain ⟨s', e, h'⟩ := runKernel_inv hk hg hf h t (h1 _ List.mem_cons_self) (h3 _ List.mem_cons_self)
    rw [List.map_cons, List.nodup_cons] at h2
    obtain ⟨s'', D'', e', h'', hD⟩ := runAll_inv hk hg hf sched (i :: D) s' h'
      (fun p hp => h1 p (List.mem_cons_of_mem _ hp)) h2.2 (by
        intro p hp hm
        rcases List.mem_cons.1 hm with hm | hm
        · exact h2.1 (by have := List.mem_map_of_mem (f := Prod.fst) hp; rwa [hm] at this)
        · exact h3 p (List.mem_cons_of_mem _ hp) hm)
    refine ⟨s'', D'', by rw [runAll, e, Option.bind_some, e'], h'', fun j => ?_⟩
    rw [hD, List.mem_cons, List.map_cons, List.mem_cons]
    tauto

theorem clear_getElem : ∀ (ms : List (MemMap F)) (bs : List (Buf F)) (j : Nat), bs.length = ms.length →
    (∀ l, ms[j]? ≠ some (.scratch l)) → (clear ms bs)[j]? = bs[j]?
  | [], [], _, _, _ => rfl
  | [], _ :: _, _, h, _ => by simp at h
  | _ :: _, [], _, h, _ => by simp at h
  | m :: ms, b :: bs, 0, _, hs => by
    cases m with
    | chunked => rfl
    | chunkedMut => rfl
    | scratch l => exact absurd rfl (hs l)
  | m :: ms, b :: bs, j + 1, h, hs => by
    have := clear_getElem ms bs j (by simpa using h) (by simpa using hs)
    cases m <;> simpa [clear] using this

theorem after_of_inv {w c : Nat} {k : Kernel F E R} {maps ms : List (MemMap F)} (hk : Typed k)
    (hf : ∀ m ∈ maps, Fit w c m) (hs : SameAll maps ms)
    (hb : ∀ i < 2 ^ c, chunkBufs c i ms = clear maps (k c (chunkBufs c i maps)).1) : ms = after k c maps := by
  have hl := hs.length
  refine List.ext_getElem (by simp [after, hl]) fun j hj hj' => ?_
  have hjm : j < maps.length := by omega
  have hsame : Same maps[j] ms[j] := (List.forall₂_iff_get.1 hs).2 j hjm hj
  have hfit := hf maps[j] (List.getElem_mem _)
  simp only [after, List.getElem_mapIdx]
  generalize hm0 : maps[j] = m0 at hsame hfit
  generalize hm1 : ms[j] = m1 at hsame
  cases hsame with
  | chunked => rfl
  | scratch => rfl
  | chunkedMut d d' l e =>
    obtain ⟨n, hn, hc, _⟩ := hfit
    simp only [MemMap.chunkedMut.injEq, and_true]
    rw [← chunks_eq (e.trans hn) hc, outputs]
    refine List.flatMap_congr fun i hi => ?_
    have h := congrArg (fun l => l[j]?) (hb i (List.mem_range.1 hi))
    rw [clear_getElem _ _ _ (by rw [typed_length hk, chunkBufs_length])
      (by intro l'; rw [List.getElem?_eq_getElem hjm, hm0]; simp), chunkBufs, List.getElem?_map,
      List.getElem?_eq_getElem hj, hm1] at h
    rw [← h]
    rfl

theorem mapM_some {α β : Type} (f : α → Option β) (g : α → β) : ∀ (l : List α), (∀ a ∈ l, f a = some (g a)) →
    l.mapM f = some (l.map g)
  | [], _ => rfl
  | a :: l, h => by
    rw [List.mapM_cons, h a List.mem_cons_self, mapM_some f g l fun a ha => h a (List.mem_cons_of_mem _ ha)]
    rfl

theorem run_spec {w c : Nat} {k : Kernel F E R} {maps : List (MemMap F)} (hk : Typed k) (hg : IgnoresScratch maps k)
    (hf : ∀ m ∈ maps, Fit w c m) {mems : Nat → List F} (hm : ∀ t, 2 ^ w ∣ (mems t).length) {sched : List (Nat × Nat)}
    (hp : (sched.map Prod.fst).Perm (List.range (2 ^ c))) :
    ∃ s, runAll w c k ⟨maps, mems, fun _ => none⟩ sched = some s ∧ s.maps = after k c maps ∧
      s.results c = some (results k c maps) := by
  obtain ⟨s, D, h1, h2, h3⟩ := runAll_inv hk hg hf sched [] ⟨maps, mems, fun _ => none⟩
    ⟨SameAll.refl _, by simp, hm, by simp⟩
    (fun p hp' => List.mem_range.1 (hp.subset (List.mem_map_of_mem hp')))
    (hp.nodup_iff.2 List.nodup_range) (by simp)
  have hD : ∀ i, i < 2 ^ c → i ∈ D := fun i hi => (h3 i).2 (Or.inr (hp.symm.subset (List.mem_range.2 hi)))
  refine ⟨s, h1, after_of_inv hk hf h2.same fun i hi => by rw [h2.bufs i hi, if_pos (hD i hi)], ?_⟩
  exact mapM_some _ _ _ fun i hi => by rw [h2.done i, if_pos (hD i (List.mem_range.1 hi))]

end zero

/-! ### Kernels that work position by position -/

section splits
variable [AddCommMonoid F]

theorem range_double (m : Nat) : List.range (2 * m) = (List.range m).flatMap fun i => [2 * i, 2 * i + 1] := by
  induction m with
  | zero => rfl
  | succ m ih =>
    rw [show 2 * (m + 1) = 2 * m + 1 + 1 by ring, List.range_succ, List.range_succ, ih, List.range_succ,
      List.flatMap_append]
    simp

omit [AddCommMonoid F] in
theorem chunk_half {c n i : Nat} {d : List F} (hd : d.length = 2 ^ n) (hc : c + 1 ≤ n) (hi : i < 2 ^ c) (r : Bool) :
    chunk 1 r.toNat (chunk c i d) = chunk (c + 1) (2 * i + r.toNat) d := by
  have hl := chunk_length hd (by omega : c ≤ n) hi
  rw [chunk_eq hl (show 1 ≤ n - c by omega), chunk_eq hd hc, chunk_eq hd (by omega : c ≤ n)]
  have e : n - c - 1 = n - (c + 1) := by omega
  have e2 : 2 ^ (n - c) = 2 * 2 ^ (n - (c + 1)) := by rw [show n - c = n - (c + 1) + 1 by omega, pow_succ]; ring
  rw [e, e2, part, part, part, List.drop_take, List.take_take, List.drop_drop]
  have : r.toNat ≤ 1 := Bool.toNat_le r
  congr 1
  · have : r.toNat * 2 ^ (n - (c + 1)) ≤ 1 * 2 ^ (n - (c + 1)) := Nat.mul_le_mul_right _ this
    omega
  · congr 1; ring

theorem chunkBufs_half {w c i : Nat} {maps : List (MemMap F)} (hf : ∀ m ∈ maps, Fit w (c + 1) m) (hi : i < 2 ^ c)
    (r : Bool) : (chunkBufs c i maps).map (Buf.half r) = chunkBufs (c + 1) (2 * i + r.toNat) maps := by
  rw [chunkBufs, chunkBufs, List.map_map]
  refine List.map_congr_left fun m hm => ?_
  have := hf m hm
  cases m with
  | chunked d l =>
    obtain ⟨n, hn, hc, _⟩ := this
    simp only [Function.comp, chunkBuf, Buf.half, chunk_half hn hc hi]
  | chunkedMut d l =>
    obtain ⟨n, hn, hc, _⟩ := this
    simp only [Function.comp, chunkBuf, Buf.half, chunk_half hn hc hi]
  | scratch l =>
    have hc : c + 1 ≤ l := this
    simp only [Function.comp, chunkBuf, Buf.half]
    congr 1
    have hr : r.toNat ≤ 1 := Bool.toNat_le r
    have e : 2 ^ (l - c) = 2 * 2 ^ (l - (c + 1)) := by rw [show l - c = l - (c + 1) + 1 by omega, pow_succ]; ring
    rw [chunk, List.length_replicate, List.drop_replicate, List.take_replicate, e, pow_one,
      Nat.mul_div_cancel_left _ (by omega : 0 < 2)]
    congr 1
    have : r.toNat * 2 ^ (l - (c + 1)) ≤ 1 * 2 ^ (l - (c + 1)) := Nat.mul_le_mul_right _ hr
    omega

theorem chunkBufs_even {w c i : Nat} {maps : List (MemMap F)} (hf : ∀ m ∈ maps, Fit w (c + 1) m) (hi : i < 2 ^ c) :
    ∀ b ∈ chunkBufs c i maps, 2 ∣ b.data.length := by
  intro b hb
  obtain ⟨m, hm, rfl⟩ := List.mem_map.1 hb
  have := hf m hm
  cases m with
  | chunked d l =>
    obtain ⟨n, hn, hc, _⟩ := this
    rw [chunkBuf, Buf.data, chunk_length hn (by omega) hi]
    exact dvd_pow_self 2 (by omega)
  | chunkedMut d l =>
    obtain ⟨n, hn, hc, _⟩ := this
    rw [chunkBuf, Buf.data, chunk_length hn (by omega) hi]
    exact dvd_pow_self 2 (by omega)
  | scratch l =>
    have hc : c + 1 ≤ l := this
    rw [chunkBuf, Buf.data, List.length_replicate]
    exact dvd_pow_self 2 (by omega)

omit [AddCommMonoid F] in
theorem join_data (a b : Buf F) : (a.join b).data = a.data ++ b.data := by cases a <;> rfl

theorem split_step {w c : Nat} {k : Kernel F E (List F)} {maps : List (MemMap F)} (hk : Typed k) (hs : Splits maps k)
    (hf : ∀ m ∈ maps, Fit w (c + 1) m) :
    total (results k (c + 1) maps) = total (results k c maps) ∧ after k (c + 1) maps = after k c maps := by
  have key : ∀ i < 2 ^ c, _ := fun i hi =>
    hs c (chunkBufs c i maps) (chunkBufs_length c i maps) (chunkBufs_even hf hi)
  constructor
  · rw [results, pow_succ, mul_comm, range_double, List.map_flatMap]
    refine total_flatMap _ _ _ fun i hi => ?_
    have := (key i (List.mem_range.1 hi)).1
    rwa [chunkBufs_half hf (List.mem_range.1 hi), chunkBufs_half hf (List.mem_range.1 hi)] at this
  · refine List.ext_getElem (by simp [after]) fun j hj hj' => ?_
    have hjm : j < maps.length := by simpa [after] using hj
    simp only [after, List.getElem_mapIdx]
    generalize hm0 : maps[j] = m0
    cases m0 with
    | chunked => rfl
    | scratch => rfl
    | chunkedMut d l =>
      simp only [MemMap.chunkedMut.injEq, and_true]
      rw [outputs, outputs, pow_succ, mul_comm, range_double, List.flatMap_assoc]
      refine List.flatMap_congr fun i hi => ?_
      have h2 := congrArg (fun l => l[j]?) (key i (List.mem_range.1 hi)).2
      rw [chunkBufs_half hf (List.mem_range.1 hi), chunkBufs_half hf (List.mem_range.1 hi)] at h2
      have l0 := (typed_length hk c (chunkBufs c i maps)).trans (chunkBufs_length _ _ _)
      have l1 := (typed_length hk (c + 1) (chunkBufs (c + 1) (2 * i) maps)).trans (chunkBufs_length _ _ _)
      have l2 := (typed_length hk (c + 1) (chunkBufs (c + 1) (2 * i + 1) maps)).trans (chunkBufs_length _ _ _)
      simp only [Bool.toNat_false, Bool.toNat_true, Nat.add_zero] at h2
      have hns : ∀ l', maps[j]? ≠ some (.scratch l') := by
        intro l'; rw [List.getElem?_eq_getElem hjm, hm0]; simp
      rw [clear_getElem _ _ _ l0 hns, clear_getElem _ _ _ (by rw [List.length_zipWith, l1, l2, min_self]) hns,
        List.getElem?_eq_getElem (by omega), List.getElem?_eq_getElem (by rw [List.length_zipWith]; omega),
        List.getElem_zipWith] at h2
      simp only [List.flatMap_cons, List.flatMap_nil, List.append_nil]
      rw [List.getElem?_eq_getElem (by omega), List.getElem?_eq_getElem (by omega), List.getElem?_eq_getElem (by omega)]
      simp only [Option.map_some, Option.getD_some]
      injection h2 with h2
      rw [h2, join_data]

theorem split_all {w : Nat} {k : Kernel F E (List F)} {maps : List (MemMap F)} (hk : Typed k) (hs : Splits maps k) :
    ∀ (c : Nat), (∀ c' ≤ c, ∀ m ∈ maps, Fit w c' m) →
    total (results k c maps) = total (results k 0 maps) ∧ after k c maps = after k 0 maps
  | 0, _ => ⟨rfl, rfl⟩
  | c + 1, hf => by
    obtain ⟨h1, h2⟩ := split_step hk hs (hf (c + 1) (le_refl _))
    obtain ⟨g1, g2⟩ := split_all hk hs c fun c' hc => hf c' (by omega)
    exact ⟨h1.trans g1, h2.trans g2⟩

end splits

end Verif.Compute.Kernel
