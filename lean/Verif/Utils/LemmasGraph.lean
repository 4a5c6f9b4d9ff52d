import Verif.Utils.ModelGraph
import Mathlib.Data.Finset.Card
import Mathlib.Logic.Relation

namespace Verif.Graph

/-- `r` is the root of the tree of `x`. -/
inductive Root (s : UF) : Nat → Nat → Prop
  | self {r : Nat} (h : s.parent r = r) : Root s r r
  | step {x r : Nat} (h : s.parent x ≠ x) (t : Root s (s.parent x) r) : Root s x r

structure Inv (s : UF) : Prop where
  bound : ∀ x < s.n, s.parent x < s.n
  rank : ∀ x < s.n, s.parent x ≠ x → s.rank x < s.rank (s.parent x)

theorem Root.isRoot {s : UF} {x r : Nat} (h : Root s x r) : s.parent r = r := by
  induction h with
  | self h => exact h
  | step _ _ ih => exact ih

theorem Root.unique {s : UF} {x r r' : Nat} (h : Root s x r) (h' : Root s x r') : r = r' := by
  induction h with
  | self h =>
    cases h' with
    | self _ => rfl
    | step hne _ => exact absurd h hne
  | step hne _ ih =>
    cases h' with
    | self h => exact absurd h hne
    | step _ t => exact ih t

/-- Vertices of larger rank: the length of any path to the root is bounded by their number. -/
def above (s : UF) (x : Nat) : Nat :=
  ((Finset.range s.n).filter fun y => s.rank x < s.rank y).card

theorem above_lt {s : UF} (hs : Inv s) {x : Nat} (hx : x < s.n) (hne : s.parent x ≠ x) :
    above s (s.parent x) < above s x := by
  refine Finset.card_lt_card ?_
  have hr := hs.rank x hx hne
  rw [Finset.ssubset_iff_of_subset]
  · refine ⟨s.parent x, ?_, ?_⟩
    · simp only [Finset.mem_filter, Finset.mem_range]; exact ⟨hs.bound x hx, hr⟩
    · simp
  · intro y hy
    simp only [Finset.mem_filter, Finset.mem_range] at hy ⊢
    exact ⟨hy.1, by omega⟩

theorem above_le (s : UF) (x : Nat) : above s x ≤ s.n := by
  have := Finset.card_filter_le (Finset.range s.n) (fun y => s.rank x < s.rank y)
  rwa [Finset.card_range] at this

theorem exists_root {s : UF} (hs : Inv s) : ∀ (k x : Nat), above s x < k → x < s.n →
    ∃ r < s.n, Root s x r := by
  intro k
  induction k with
  | zero => intro x h; omega
  | succ k ih =>
    intro x hk hx
    by_cases h : s.parent x = x
    · exact ⟨x, hx, .self h⟩
    · obtain ⟨r, hr, ht⟩ := ih (s.parent x) (by have := above_lt hs hx h; omega) (hs.bound x hx)
      exact ⟨r, hr, .step h ht⟩

theorem exists_root' {s : UF} (hs : Inv s) {x : Nat} (hx : x < s.n) : ∃ r < s.n, Root s x r :=
  exists_root hs _ x (Nat.lt_succ_self _) hx

theorem Root.rank_lt {s : UF} (hs : Inv s) {x r : Nat} (h : Root s x r) (hx : x < s.n) :
    x = r ∨ s.rank x < s.rank r := by
  induction h with
  | self _ => exact Or.inl rfl
  | step hne _ ih =>
    rename_i y z
    have := hs.rank _ hx hne
    rcases ih (hs.bound _ hx) with h | h
    · right; rw [← h]; exact this
    · right; omega

/-- Path compression of one vertex. -/
theorem compress {s t : UF} (hs : Inv s) {x r : Nat} (hx : x < s.n) (hr : r < s.n)
    (hxr : x ≠ r) (hroot : Root s x r) (hn : t.n = s.n) (hrk : t.rank = s.rank)
    (hp : t.parent = upd s.parent x r) :
    Inv t ∧ ∀ y z, y < s.n → (Root t y z ↔ Root s y z) := by
  have hfwd : ∀ y z, y < s.n → Root s y z → Root t y z := by
    intro y z hy h
    induction h with
    | self h =>
      rename_i w
      have : w ≠ x := by
        rintro rfl
        exact hxr (Root.unique (.self h) hroot)
      refine .self ?_
      rw [hp, upd, if_neg this]; exact h
    | step hne h ih =>
      rename_i u w
      by_cases hux : u = x
      · subst hux
        have : w = r := Root.unique (.step hne h) hroot
        subst this
        have hpu : t.parent u = w := by rw [hp, upd, if_pos rfl]
        refine .step (by rw [hpu]; exact fun h => hxr h.symm) ?_
        rw [hpu]
        refine .self ?_
        rw [hp, upd, if_neg (fun h => hxr h.symm)]
        exact hroot.isRoot
      · have hpu : t.parent u = s.parent u := by rw [hp, upd, if_neg hux]
        refine .step (by rw [hpu]; exact hne) ?_
        rw [hpu]; exact ih (hs.bound _ hy)
  refine ⟨⟨?_, ?_⟩, fun y z hy => ⟨fun h => ?_, hfwd y z hy⟩⟩
  · intro y hy
    rw [hn] at hy ⊢
    rw [hp, upd]
    split
    · exact hr
    · exact hs.bound y hy
  · intro y hy hne
    rw [hn] at hy
    rw [hrk, hp, upd]
    rw [hp, upd] at hne
    split
    · rename_i h
      rw [h]
      exact (hroot.rank_lt hs hx).resolve_left hxr
    · rename_i h
      rw [if_neg h] at hne
      exact hs.rank y hy hne
  · obtain ⟨w, _, hw⟩ := exists_root' hs hy
    rw [h.unique (hfwd y w hy hw)]; exact hw

theorem find_spec {s : UF} (hs : Inv s) : ∀ (fuel x : Nat), above s x < fuel → x < s.n →
    ∃ s' r, s.find fuel x = some (s', r) ∧ r < s.n ∧ Root s x r ∧ Inv s' ∧ s'.n = s.n ∧
      s'.rank = s.rank ∧ s'.minElement = s.minElement ∧
      ∀ y z, y < s.n → (Root s' y z ↔ Root s y z) := by
  intro fuel
  induction fuel with
  | zero => intro x h; omega
  | succ fuel ih =>
    intro x hf hx
    by_cases h : s.parent x = x
    · refine ⟨s, x, ?_, hx, .self h, hs, rfl, rfl, rfl, fun _ _ _ => Iff.rfl⟩
      rw [UF.find, if_pos hx, if_neg (not_not.mpr h)]
    · obtain ⟨s1, r, he, hr, hroot, hi, hn, hrk, hm, hsame⟩ :=
        ih (s.parent x) (by have := above_lt hs hx h; omega) (hs.bound x hx)
      have hroot' : Root s x r := .step h hroot
      have hxr : x ≠ r := by
        rintro rfl
        exact h hroot.isRoot
      obtain ⟨hi2, hsame2⟩ := compress (t := { s1 with parent := upd s1.parent x r }) hi
        (by rw [hn]; exact hx) (by rw [hn]; exact hr) hxr ((hsame x r hx).mpr hroot') rfl rfl rfl
      refine ⟨{ s1 with parent := upd s1.parent x r }, r, ?_, hr, hroot', hi2, hn, hrk, hm, ?_⟩
      · rw [UF.find, if_pos hx, if_pos h, he]; rfl
      · intro y z hy
        rw [hsame2 y z (by rw [hn]; exact hy), hsame y z hy]

theorem find_spec' {s : UF} (hs : Inv s) {x : Nat} (hx : x < s.n) :
    ∃ s' r, s.find (s.n + 1) x = some (s', r) ∧ r < s.n ∧ Root s x r ∧ Inv s' ∧ s'.n = s.n ∧
      s'.rank = s.rank ∧ s'.minElement = s.minElement ∧
      ∀ y z, y < s.n → (Root s' y z ↔ Root s y z) :=
  find_spec hs _ x (by have := above_le s x; omega) hx

/-- In the same tree. -/
def same (s : UF) (y z : Nat) : Prop := ∃ r, Root s y r ∧ Root s z r

/-- The stored minimum of a root is the least vertex of its tree. -/
def MinOK (s : UF) : Prop := ∀ r < s.n, s.parent r = r →
  s.minElement r < s.n ∧ Root s (s.minElement r) r ∧ ∀ y < s.n, Root s y r → s.minElement r ≤ y

theorem minOK_congr {s t : UF} (hn : t.n = s.n) (hm : t.minElement = s.minElement)
    (hr : ∀ y z, y < s.n → (Root t y z ↔ Root s y z)) (h : MinOK s) : MinOK t := by
  intro r hrn hroot
  rw [hn] at hrn
  have hroot' : s.parent r = r := ((hr r r hrn).mp (.self hroot)).isRoot
  obtain ⟨h1, h2, h3⟩ := h r hrn hroot'
  rw [hm, hn]
  exact ⟨h1, (hr _ _ h1).mpr h2, fun y hy hy' => h3 y hy ((hr y r hy).mp hy')⟩

/-- Linking root `a` below root `b`. -/
theorem link {s t : UF} (hs : Inv s) {a b : Nat} (ha : a < s.n) (hb : b < s.n)
    (hab : a ≠ b) (hra : s.parent a = a) (hrb : s.parent b = b)
    (hp : t.parent = upd s.parent a b) :
    ∀ y z, y < s.n → (Root t y z ↔ (Root s y a ∧ z = b) ∨ (Root s y z ∧ z ≠ a)) := by
  have hfwd : ∀ y z, y < s.n → Root s y z → Root t y (if z = a then b else z) := by
    intro y z hy h
    induction h with
    | self h =>
      rename_i w
      split
      · rename_i hw
        subst hw
        have hpa : t.parent w = b := by rw [hp, upd, if_pos rfl]
        refine .step (by rw [hpa]; exact fun h => hab h.symm) ?_
        rw [hpa]
        exact .self (by rw [hp, upd, if_neg (fun h => hab h.symm)]; exact hrb)
      · rename_i hw
        exact .self (by rw [hp, upd, if_neg hw]; exact h)
    | step hne h ih =>
      rename_i u w
      have hua : u ≠ a := by rintro rfl; exact hne hra
      have hpu : t.parent u = s.parent u := by rw [hp, upd, if_neg hua]
      refine .step (by rw [hpu]; exact hne) ?_
      rw [hpu]; exact ih (hs.bound _ hy)
  intro y z hy
  obtain ⟨w, _, hw⟩ := exists_root' hs hy
  have hw' := hfwd y w hy hw
  constructor
  · intro h
    have he := h.unique hw'
    by_cases hwa : w = a
    · left; rw [if_pos hwa] at he; exact ⟨hwa ▸ hw, he⟩
    · right; rw [if_neg hwa] at he; rw [he]; exact ⟨hw, hwa⟩
  · rintro (⟨h, rfl⟩ | ⟨h, hz⟩)
    · rwa [if_pos (hw.unique h)] at hw'
    · have := hw.unique h
      rw [this, if_neg hz] at hw'
      exact hw'

theorem same_symm {s : UF} {y z : Nat} (h : same s y z) : same s z y := by
  obtain ⟨r, h1, h2⟩ := h; exact ⟨r, h2, h1⟩

/-- What `union` guarantees. -/
structure UnionOK (s t : UF) (x y : Nat) : Prop where
  n : t.n = s.n
  inv : Inv t
  min : MinOK t
  mono : ∀ u v, u < s.n → v < s.n → same s u v → same t u v
  joined : same t x y
  only : ∀ u v, u < s.n → v < s.n → same t u v →
    same s u v ∨ (same s u x ∧ same s y v) ∨ (same s u y ∧ same s x v)

theorem link_ok {s t : UF} (hs : Inv s) (hm : MinOK s) {a b x y : Nat} (ha : a < s.n)
    (hb : b < s.n) (hab : a ≠ b) (hra : s.parent a = a) (hrb : s.parent b = b)
    (hxy : (Root s x a ∧ Root s y b) ∨ (Root s x b ∧ Root s y a)) (hx : x < s.n) (hy : y < s.n)
    (hn : t.n = s.n) (hp : t.parent = upd s.parent a b)
    (hmin : t.minElement = upd s.minElement b (min (s.minElement a) (s.minElement b)))
    (hinv : Inv t) : UnionOK s t x y := by
  have L := link hs ha hb hab hra hrb hp
  refine ⟨hn, hinv, ?_, ?_, ?_, ?_⟩
  · intro r hr hroot
    rw [hn] at hr
    have hrs := (L r r hr).mp (.self hroot)
    have hra' : r ≠ a := by
      rintro rfl
      rcases hrs with ⟨-, h⟩ | ⟨-, h⟩
      · exact hab h
      · exact h rfl
    obtain ⟨a1, a2, a3⟩ := hm a ha hra
    obtain ⟨b1, b2, b3⟩ := hm b hb hrb
    by_cases hrb' : r = b
    · subst hrb'
      rw [hmin, upd, if_pos rfl, hn]
      refine ⟨by omega, ?_, ?_⟩
      · rcases le_total (s.minElement a) (s.minElement r) with h | h
        · rw [min_eq_left h]; exact (L _ _ a1).mpr (Or.inl ⟨a2, rfl⟩)
        · rw [min_eq_right h]; exact (L _ _ b1).mpr (Or.inr ⟨b2, hra'⟩)
      · intro u hu hu'
        rcases (L u r hu).mp hu' with ⟨h, -⟩ | ⟨h, -⟩
        · exact (min_le_left _ _).trans (a3 u hu h)
        · exact (min_le_right _ _).trans (b3 u hu h)
    · have hroot' : s.parent r = r := by
        rcases hrs with ⟨h, h'⟩ | ⟨h, -⟩
        · exact absurd h' hrb'
        · exact h.isRoot
      obtain ⟨r1, r2, r3⟩ := hm r hr hroot'
      rw [hmin, upd, if_neg hrb', hn]
      refine ⟨r1, (L _ _ r1).mpr (Or.inr ⟨r2, hra'⟩), fun u hu hu' => ?_⟩
      rcases (L u r hu).mp hu' with ⟨-, h⟩ | ⟨h, -⟩
      · exact absurd h hrb'
      · exact r3 u hu h
  · rintro u v hu hv ⟨r, h1, h2⟩
    by_cases hr : r = a
    · subst hr
      exact ⟨b, (L u b hu).mpr (Or.inl ⟨h1, rfl⟩), (L v b hv).mpr (Or.inl ⟨h2, rfl⟩)⟩
    · exact ⟨r, (L u r hu).mpr (Or.inr ⟨h1, hr⟩), (L v r hv).mpr (Or.inr ⟨h2, hr⟩)⟩
  · rcases hxy with ⟨h1, h2⟩ | ⟨h1, h2⟩
    · exact ⟨b, (L x b hx).mpr (Or.inl ⟨h1, rfl⟩),
        (L y b hy).mpr (Or.inr ⟨h2, fun h => hab h.symm⟩)⟩
    · exact ⟨b, (L x b hx).mpr (Or.inr ⟨h1, fun h => hab h.symm⟩),
        (L y b hy).mpr (Or.inl ⟨h2, rfl⟩)⟩
  · rintro u v hu hv ⟨r, h1, h2⟩
    rcases (L u r hu).mp h1 with ⟨u1, u2⟩ | ⟨u1, u2⟩ <;>
      rcases (L v r hv).mp h2 with ⟨v1, v2⟩ | ⟨v1, v2⟩
    · exact Or.inl ⟨a, u1, v1⟩
    · subst u2
      rcases hxy with ⟨x1, y1⟩ | ⟨x1, y1⟩
      · exact Or.inr (Or.inl ⟨⟨a, u1, x1⟩, ⟨r, y1, v1⟩⟩)
      · exact Or.inr (Or.inr ⟨⟨a, u1, y1⟩, ⟨r, x1, v1⟩⟩)
    · subst v2
      rcases hxy with ⟨x1, y1⟩ | ⟨x1, y1⟩
      · exact Or.inr (Or.inr ⟨⟨r, u1, y1⟩, ⟨a, x1, v1⟩⟩)
      · exact Or.inr (Or.inl ⟨⟨r, u1, x1⟩, ⟨a, y1, v1⟩⟩)
    · exact Or.inl ⟨r, u1, v1⟩

theorem inv_link {s t : UF} (hs : Inv s) {a b : Nat} (hb : b < s.n)
    (hab : a ≠ b) (hrb : s.parent b = b) (hn : t.n = s.n)
    (hp : t.parent = upd s.parent a b)
    (hrk : (t.rank = s.rank ∧ s.rank a < s.rank b) ∨
      (t.rank = upd s.rank b (s.rank b + 1) ∧ s.rank a = s.rank b)) : Inv t := by
  refine ⟨fun y hy => ?_, fun y hy hne => ?_⟩
  · rw [hn] at hy ⊢
    rw [hp, upd]
    split
    · exact hb
    · exact hs.bound y hy
  · rw [hn] at hy
    rw [hp, upd] at hne ⊢
    rcases hrk with ⟨h1, h2⟩ | ⟨h1, h2⟩
    · rw [h1]
      split
      · rename_i h; rw [h]; exact h2
      · rename_i h; rw [if_neg h] at hne; exact hs.rank y hy hne
    · rw [h1]
      split
      · rename_i h
        rw [h, upd, upd, if_neg hab, if_pos rfl]; omega
      · rename_i h
        rw [if_neg h] at hne
        have := hs.rank y hy hne
        have hyb : y ≠ b := by rintro rfl; exact hne hrb
        rw [upd, upd, if_neg hyb]
        split
        · rename_i h'; rw [h'] at this; omega
        · exact this

theorem union_spec {s : UF} (hs : Inv s) (hm : MinOK s) {x y : Nat} (hx : x < s.n) (hy : y < s.n) :
    ∃ t, s.union x y = some t ∧ UnionOK s t x y := by
  obtain ⟨s1, rx, e1, hrx, root1, i1, n1, k1, m1, r1⟩ := find_spec' hs hx
  obtain ⟨s2, ry, e2, hry, root2, i2, n2, k2, m2, r2⟩ :=
    find_spec' i1 (x := y) (by rw [n1]; exact hy)
  have n12 : s2.n = s.n := n2.trans n1
  rw [n1] at hry r2
  have r12 : ∀ u z, u < s.n → (Root s2 u z ↔ Root s u z) := fun u z hu => by
    rw [r2 u z hu, r1 u z hu]
  have hm2 : MinOK s2 := minOK_congr n12 (m2.trans m1) r12 hm
  have same2 : ∀ u v, u < s.n → v < s.n → (same s2 u v ↔ same s u v) := fun u v hu hv => by
    constructor
    · rintro ⟨r, h1, h2⟩; exact ⟨r, (r12 u r hu).mp h1, (r12 v r hv).mp h2⟩
    · rintro ⟨r, h1, h2⟩; exact ⟨r, (r12 u r hu).mpr h1, (r12 v r hv).mpr h2⟩
  have rootx : Root s2 x rx := (r12 x rx hx).mpr root1
  have rooty : Root s2 y ry := (r2 y ry hy).mpr root2
  -- facts about `s2` transfer to `s`
  have transfer : ∀ t, UnionOK s2 t x y → UnionOK s t x y := by
    intro t h
    refine ⟨h.n.trans n12, h.inv, h.min, ?_, h.joined, ?_⟩
    · intro u v hu hv huv
      exact h.mono u v (by omega) (by omega) ((same2 u v hu hv).mpr huv)
    · intro u v hu hv huv
      have := h.only u v (by omega) (by omega) huv
      rwa [same2 u v hu hv, same2 u x hu hx, same2 y v hy hv, same2 u y hu hy,
        same2 x v hx hv] at this
  by_cases hne : rx = ry
  · refine ⟨s2, ?_, ?_⟩
    · simp only [UF.union, e1, e2, Option.bind_eq_bind, Option.bind_some]
      rw [if_neg (not_not.mpr hne)]
    · exact transfer s2 ⟨rfl, i2, hm2, fun _ _ _ _ h => h,
        ⟨rx, rootx, hne ▸ rooty⟩, fun _ _ _ _ h => Or.inl h⟩
  · by_cases hlt : s2.rank rx < s2.rank ry
    · refine ⟨{ s2 with parent := upd s2.parent rx ry, minElement := upd s2.minElement ry (min (s2.minElement rx) (s2.minElement ry)) }, ?_, transfer _ ?_⟩
      · simp only [UF.union, e1, e2, Option.bind_eq_bind, Option.bind_some]
        rw [if_pos hne, if_pos hlt]
      · exact link_ok i2 hm2 (by omega) (by omega) hne rootx.isRoot rooty.isRoot
          (Or.inl ⟨rootx, rooty⟩) (by omega) (by omega) rfl rfl rfl
          (inv_link i2 (by omega) hne rooty.isRoot rfl rfl (Or.inl ⟨rfl, hlt⟩))
    · by_cases hgt : s2.rank rx > s2.rank ry
      · refine ⟨{ s2 with parent := upd s2.parent ry rx, minElement := upd s2.minElement rx (min (s2.minElement rx) (s2.minElement ry)) }, ?_, transfer _ ?_⟩
        · simp only [UF.union, e1, e2, Option.bind_eq_bind, Option.bind_some]
          rw [if_pos hne, if_neg hlt, if_pos hgt]
        · exact link_ok i2 hm2 (by omega) (by omega) (fun h => hne h.symm) rooty.isRoot rootx.isRoot
            (Or.inr ⟨rootx, rooty⟩) (by omega) (by omega) rfl rfl (by rw [min_comm])
            (inv_link i2 (by omega) (fun h => hne h.symm) rootx.isRoot rfl rfl (Or.inl ⟨rfl, hgt⟩))
      · refine ⟨{ s2 with parent := upd s2.parent ry rx, minElement := upd s2.minElement rx (min (s2.minElement rx) (s2.minElement ry)), rank := upd s2.rank rx (s2.rank rx + 1) }, ?_, transfer _ ?_⟩
        · simp only [UF.union, e1, e2, Option.bind_eq_bind, Option.bind_some]
          rw [if_pos hne, if_neg hlt, if_neg hgt]
        · exact link_ok i2 hm2 (by omega) (by omega) (fun h => hne h.symm) rooty.isRoot rootx.isRoot
            (Or.inr ⟨rootx, rooty⟩) (by omega) (by omega) rfl rfl (by rw [min_comm])
            (inv_link i2 (by omega) (fun h => hne h.symm) rootx.isRoot rfl rfl
              (Or.inr ⟨rfl, by omega⟩))

/-- State of the loop, relative to the final relation `L`. -/
structure Good (L : Nat → Nat → Prop) (s : UF) : Prop where
  inv : Inv s
  min : MinOK s
  sound : ∀ u v, u < s.n → v < s.n → same s u v → L u v

theorem union_good {L : Nat → Nat → Prop} (hL : Equivalence L) {s : UF} (h : Good L s) {x y : Nat}
    (hx : x < s.n) (hy : y < s.n) (hxy : L x y) :
    ∃ t, s.union x y = some t ∧ Good L t ∧ UnionOK s t x y := by
  obtain ⟨t, e, ok⟩ := union_spec h.inv h.min hx hy
  refine ⟨t, e, ⟨ok.inv, ok.min, fun u v hu hv huv => ?_⟩, ok⟩
  rw [ok.n] at hu hv
  rcases ok.only u v hu hv huv with h1 | ⟨h1, h2⟩ | ⟨h1, h2⟩
  · exact h.sound u v hu hv h1
  · exact hL.trans (h.sound u x hu hx h1) (hL.trans hxy (h.sound y v hy hv h2))
  · exact hL.trans (h.sound u y hu hy h1) (hL.trans (hL.symm hxy) (h.sound x v hx hv h2))

/-- `t` extends `s`: same size, more joined. -/
def Ext (s t : UF) : Prop := t.n = s.n ∧ ∀ u v, u < s.n → v < s.n → same s u v → same t u v

theorem Ext.refl (s : UF) : Ext s s := ⟨rfl, fun _ _ _ _ h => h⟩

theorem Ext.trans {s t u : UF} (h : Ext s t) (h' : Ext t u) : Ext s u :=
  ⟨h'.1.trans h.1, fun a b ha hb hab => h'.2 a b (by rw [h.1]; exact ha) (by rw [h.1]; exact hb)
    (h.2 a b ha hb hab)⟩

theorem unionNodes_good {L : Nat → Nat → Prop} (hL : Equivalence L) {base : Nat} :
    ∀ (ids : List Nat) (s : UF), Good L s → base < s.n → (∀ i ∈ ids, i < s.n ∧ L base i) →
    ∃ t, unionNodes base s ids = some t ∧ Good L t ∧ Ext s t ∧ ∀ i ∈ ids, same t base i := by
  intro ids
  induction ids with
  | nil => intro s h _ _; exact ⟨s, rfl, h, Ext.refl s, fun i hi => absurd hi List.not_mem_nil⟩
  | cons node ids ih =>
    intro s h hb hids
    have hnode := hids node List.mem_cons_self
    have hrest := fun i hi => hids i (List.mem_cons_of_mem node hi)
    by_cases hne : node = base
    · obtain ⟨t, e, g, x, j⟩ := ih s h hb hrest
      refine ⟨t, ?_, g, x, fun i hi => ?_⟩
      · rw [unionNodes, if_neg (not_not.mpr hne)]; exact e
      · rcases List.mem_cons.mp hi with rfl | hi
        · rw [hne]
          obtain ⟨r, _, hr⟩ := exists_root' g.inv (x := base) (by rw [x.1]; exact hb)
          exact ⟨r, hr, hr⟩
        · exact j i hi
    · obtain ⟨s1, e1, g1, ok⟩ := union_good hL h hb hnode.1 hnode.2
      have x1 : Ext s s1 := ⟨ok.n, ok.mono⟩
      obtain ⟨t, e, g, x, j⟩ := ih s1 g1 (by rw [ok.n]; exact hb)
        (fun i hi => by rw [ok.n]; exact hrest i hi)
      refine ⟨t, ?_, g, x1.trans x, fun i hi => ?_⟩
      · rw [unionNodes, if_pos hne, e1]; exact e
      · rcases List.mem_cons.mp hi with rfl | hi
        · exact x.2 _ _ (by rw [ok.n]; exact hb) (by rw [ok.n]; exact hnode.1) ok.joined
        · exact j i hi

theorem same_trans {s : UF} {a b c : Nat} (h : same s a b) (h' : same s b c) : same s a c := by
  obtain ⟨r, h1, h2⟩ := h
  obtain ⟨r', h3, h4⟩ := h'
  rw [h3.unique h2] at h4
  exact ⟨r, h1, h4⟩

theorem unionGroups_good {L : Nat → Nat → Prop} (hL : Equivalence L) :
    ∀ (data : List (List Nat)) (s : UF), Good L s →
    (∀ g ∈ data, (∀ i ∈ g, i < s.n) ∧ ∀ i ∈ g, ∀ j ∈ g, L i j) →
    ∃ t, unionGroups s data = some t ∧ Good L t ∧ Ext s t ∧
      ∀ g ∈ data, ∀ i ∈ g, ∀ j ∈ g, same t i j := by
  intro data
  induction data with
  | nil => intro s h _; exact ⟨s, rfl, h, Ext.refl s, fun g hg => absurd hg List.not_mem_nil⟩
  | cons ids data ih =>
    intro s h hd
    obtain ⟨hb, hl⟩ := hd ids List.mem_cons_self
    have hrest := fun g hg => hd g (List.mem_cons_of_mem ids hg)
    -- the first group
    have first : ∃ s1, unionGroup s ids = some s1 ∧ Good L s1 ∧ Ext s s1 ∧ ∀ i ∈ ids, ∀ j ∈ ids, same s1 i j := by
      rw [unionGroup]
      by_cases hlen : ids.length > 1
      · rw [if_pos hlen]
        have hne : ids ≠ [] := by rintro rfl; simp at hlen
        obtain ⟨base, hbase⟩ := Option.isSome_iff_exists.mp (List.isSome_min?_of_ne_nil hne)
        have hmem : base ∈ ids := List.min?_mem hbase
        obtain ⟨t, e, g, x, j⟩ := unionNodes_good hL ids s h (hb base hmem)
          (fun i hi => ⟨hb i hi, hl base hmem i hi⟩)
        exact ⟨t, by simp only [hbase, Option.bind_eq_bind, Option.bind_some]; exact e, g, x,
          fun a ha b hb' => same_trans (same_symm (j a ha)) (j b hb')⟩
      · rw [if_neg hlen]
        refine ⟨s, rfl, h, Ext.refl s, fun i hi j hj => ?_⟩
        have : i = j := by
          match ids, hlen with
          | [], _ => exact absurd hi List.not_mem_nil
          | [a], _ => rw [List.mem_singleton] at hi hj; rw [hi, hj]
          | _ :: _ :: _, hlen => exact absurd (by simp) hlen
        rw [← this]
        obtain ⟨r, _, hr⟩ := exists_root' h.inv (hb i hi)
        exact ⟨r, hr, hr⟩
    obtain ⟨s1, e1, g1, x1, j1⟩ := first
    obtain ⟨t, e, g, x, j⟩ := ih s1 g1 (fun g hg => by rw [x1.1]; exact hrest g hg)
    refine ⟨t, ?_, g, x1.trans x, fun g' hg => ?_⟩
    · rw [unionGroups, e1]; exact e
    · rcases List.mem_cons.mp hg with rfl | hg
      · intro a ha b hb'
        exact x.2 a b (by rw [x1.1]; exact hb a ha) (by rw [x1.1]; exact hb b hb') (j1 a ha b hb')
      · exact j g' hg

theorem collect_spec : ∀ (k : Nat) (s : UF) (i : Nat), Inv s → MinOK s → i + k ≤ s.n →
    ∃ out, collect k s i = some out ∧ out.length = k ∧
      ∀ p (hp : p < out.length), same s (i + p) out[p] ∧ out[p] < s.n ∧
        ∀ y < s.n, same s (i + p) y → out[p] ≤ y := by
  intro k
  induction k with
  | zero => intro s i _ _ _; exact ⟨[], rfl, rfl, fun p hp => absurd hp (by simp)⟩
  | succ k ih =>
    intro s i hs hm hk
    obtain ⟨s1, r, e, hr, root, i1, n1, k1, m1, r1⟩ := find_spec' hs (x := i) (by omega)
    have hm1 := minOK_congr n1 m1 r1 hm
    obtain ⟨out, eo, ho, hv⟩ := ih s1 (i + 1) i1 hm1 (by omega)
    have same1 : ∀ u v, u < s.n → v < s.n → (same s1 u v ↔ same s u v) := fun u v hu hv => by
      constructor
      · rintro ⟨r, h1, h2⟩; exact ⟨r, (r1 u r hu).mp h1, (r1 v r hv).mp h2⟩
      · rintro ⟨r, h1, h2⟩; exact ⟨r, (r1 u r hu).mpr h1, (r1 v r hv).mpr h2⟩
    refine ⟨s1.minElement r :: out, ?_, by simp [ho], ?_⟩
    · simp only [collect, e, eo, Option.bind_eq_bind, Option.bind_some]
    · intro p hp
      cases p with
      | zero =>
        obtain ⟨a1, a2, a3⟩ := hm r hr root.isRoot
        simp only [Nat.add_zero, List.getElem_cons_zero, m1]
        refine ⟨⟨r, root, a2⟩, a1, fun y hy hsame => ?_⟩
        obtain ⟨r', h1, h2⟩ := hsame
        rw [h1.unique root] at h2
        exact a3 y hy h2
      | succ p =>
        have hp' : p < out.length := by simpa using hp
        obtain ⟨h1, h2, h3⟩ := hv p hp'
        simp only [List.getElem_cons_succ]
        rw [n1] at h2
        have e1 : i + (p + 1) = i + 1 + p := by omega
        rw [e1]
        refine ⟨(same1 _ _ (by omega) h2).mp h1, h2, fun y hy hsame => ?_⟩
        exact h3 y (by omega) ((same1 _ _ (by omega) hy).mpr hsame)

end Verif.Graph
