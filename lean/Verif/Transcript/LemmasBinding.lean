import Verif.Transcript.LemmasChallenger
import Verif.Utils.LemmasSerialization

/-! # The hash chain determines the history: lemmas -/

namespace Verif.Transcript
open Verif.Ser (leBytes ofLeBytes length_leBytes ofLeBytes_leBytes)

variable (H : HashFn)

theorem specRun_append (us vs : List Use) (σ : SpecState) :
    σ.run H (us ++ vs) = ((σ.run H us).1 ++ ((σ.run H us).2.run H vs).1,
      ((σ.run H us).2.run H vs).2) := by
  induction us generalizing σ with
  | nil => simp [SpecState.run]
  | cons u us ih =>
    cases u with
    | observe bs => simp only [List.cons_append, SpecState.run, ih]
    | sample n => simp only [List.cons_append, SpecState.run, ih]

theorem hashed_append (us vs : List Use) (σ : SpecState) (x : Bytes) :
    (x ∈ σ.hashed H us ∨ x ∈ (σ.run H us).2.hashed H vs) → x ∈ σ.hashed H (us ++ vs) := by
  induction us generalizing σ with
  | nil =>
    rintro (h | h)
    · rw [List.nil_append]
      cases vs with
      | nil => exact h
      | cons v vs =>
        cases v with
        | observe bs => exact List.mem_append_left _ h
        | sample n => exact List.mem_append_left _ h
    · exact h
  | cons u us ih =>
    cases u with
    | observe bs =>
      rintro (h | h)
      · rcases List.mem_append.mp h with h | h
        · exact List.mem_append_left _ h
        · exact List.mem_append_right _ (ih _ (.inl h))
      · exact List.mem_append_right _ (ih _ (.inr h))
    | sample n =>
      rintro (h | h)
      · rcases List.mem_append.mp h with h | h
        · exact List.mem_append_left _ h
        · exact List.mem_append_right _ (ih _ (.inl h))
      · exact List.mem_append_right _ (ih _ (.inr h))

/-- The state after a history given backwards: message, blocks, used. -/
def fin (n : Nat) : List (Bytes × Nat) → Bytes × Nat × Nat
  | [] => ([], max 1 (blocksFor H n), n)
  | (a, m) :: r => (resume H (fin n r).1 (fin n r).2.1 (fin n r).2.2 ++ a, blocksFor H m, m)

theorem history_state (n : Nat) (rs : List (Bytes × Nat)) :
    (SpecState.init.run H (history n rs)).2 =
      .squeezing (fin H n rs.reverse).1 (fin H n rs.reverse).2.1 (fin H n rs.reverse).2.2 := by
  induction rs using List.reverseRecOn with
  | nil => simp [history, SpecState.run, SpecState.init, SpecState.sample, fin]
  | append_singleton rs r ih =>
    have e : history n (rs ++ [r]) = history n rs ++ [.observe r.1, .sample r.2] := by
      simp [history]
    rw [e, specRun_append, ih, List.reverse_append]
    rfl

/-- The messages hashed, for a history given backwards. -/
def finHashed (n : Nat) : List (Bytes × Nat) → List Bytes
  | [] => (List.range (fin H n []).2.1).map (chain H (fin H n []).1)
  | r :: rs => (List.range (fin H n (r :: rs)).2.1).map (chain H (fin H n (r :: rs)).1) ++
      finHashed n rs

theorem finHashed_sub (n : Nat) (rs : List (Bytes × Nat)) (x : Bytes)
    (hx : x ∈ finHashed H n rs.reverse) : x ∈ SpecState.init.hashed H (history n rs) := by
  induction rs using List.reverseRecOn with
  | nil =>
    refine List.mem_append_right _ ?_
    simpa [finHashed, fin, SpecState.hashed, SpecState.hashedHere, SpecState.sample,
      SpecState.init] using hx
  | append_singleton rs r ih =>
    have e : history n (rs ++ [r]) = history n rs ++ [.observe r.1, .sample r.2] := by
      simp [history]
    rw [e]
    apply hashed_append
    rw [List.reverse_append] at hx
    rcases List.mem_append.mp hx with hx | hx
    · right
      rw [history_state]
      exact List.mem_append_right _ (List.mem_append_right _ hx)
    · exact .inl (ih hx)

theorem chain_back (h h' : Bytes) (k d : Nat) (heq : chain H h k = chain H h' (k + d)) :
    h = chain H h' d ∨ ∃ i, i < k ∧ chain H h i ≠ chain H h' (i + d) ∧
      H.hash (chain H h i) = H.hash (chain H h' (i + d)) := by
  induction k with
  | zero => left; rw [Nat.zero_add] at heq; exact heq
  | succ k ih =>
    have e : k + 1 + d = k + d + 1 := by omega
    rw [e] at heq
    by_cases hk : chain H h k = chain H h' (k + d)
    · rcases ih hk with h1 | ⟨i, h1, h2⟩
      · exact .inl h1
      · exact .inr ⟨i, by omega, h2⟩
    · exact .inr ⟨k, by omega, hk, heq⟩

theorem resume_length (h : Bytes) (q n : Nat) (hq : 0 < q) :
    (resume H h q n).length = H.out + 8 := by
  obtain ⟨k, rfl⟩ : ∃ k, q = k + 1 := ⟨q - 1, by omega⟩
  rw [resume, List.length_append, chain_length, length_leBytes]

theorem blocksFor_pos (n : Nat) (h : 0 < n) : 0 < blocksFor H n := by
  obtain ⟨k, rfl⟩ : ∃ k, n = k + 1 := ⟨n - 1, by omega⟩
  rw [blocksFor_succ]; exact Nat.succ_pos _

theorem blocksFor_bounds (n : Nat) : n ≤ blocksFor H n * H.out ∧
    (0 < n → blocksFor H n * H.out < n + H.out) := by
  have hp := H.out_pos
  rcases Nat.eq_zero_or_pos n with rfl | h
  · exact ⟨Nat.zero_le _, fun h => absurd h (by omega)⟩
  · obtain ⟨k, rfl⟩ : ∃ k, n = k + 1 := ⟨n - 1, by omega⟩
    rw [blocksFor_succ, Nat.add_mul]
    have := Nat.div_add_mod' k H.out
    have := Nat.mod_lt k hp
    omega

theorem fin_bounds (n : Nat) (rs : List (Bytes × Nat)) (hrs : ∀ r ∈ rs, 0 < r.2) :
    0 < (fin H n rs).2.1 ∧ (fin H n rs).2.2 ≤ (fin H n rs).2.1 * H.out ∧
      (fin H n rs).2.1 * H.out ≤ (fin H n rs).2.2 + H.out ∧
      ((fin H n rs).1.length = 0 ∧ rs = [] ∨ H.out + 8 ≤ (fin H n rs).1.length ∧ rs ≠ []) := by
  have hp := H.out_pos
  induction rs with
  | nil =>
    simp only [fin, List.length_nil, true_and]
    have hb := blocksFor_bounds H n
    rcases Nat.eq_zero_or_pos n with rfl | hn
    · have : blocksFor H 0 = 0 := by unfold blocksFor; rw [Nat.div_eq_of_lt (by omega)]
      rw [this]; simp
    · have := blocksFor_pos H n hn
      have e : max 1 (blocksFor H n) = blocksFor H n := by omega
      rw [e]
      exact ⟨this, hb.1, by have := hb.2 hn; omega, .inl trivial⟩
  | cons r rs ih =>
    obtain ⟨a, m⟩ := r
    obtain ⟨h1, h2, h3, _⟩ := ih fun r hr => hrs r (List.mem_cons_of_mem _ hr)
    have hm : 0 < m := hrs _ (List.mem_cons_self ..)
    have hb := blocksFor_bounds H m
    simp only [fin]
    refine ⟨blocksFor_pos H m hm, hb.1, by have := hb.2 hm; omega, .inr ⟨?_, by simp⟩⟩
    rw [List.length_append, resume_length H _ _ _ h1]
    omega

theorem leBytes_inj {x y : Nat} (hx : x < 2 ^ 64) (hy : y < 2 ^ 64) (h : leBytes 8 x = leBytes 8 y) :
    x = y := by
  have := congrArg ofLeBytes h
  rw [ofLeBytes_leBytes, ofLeBytes_leBytes, Nat.mod_eq_of_lt (by simpa using hx),
    Nat.mod_eq_of_lt (by simpa using hy)] at this
  exact this

/-- A collision between the messages of two lists. -/
def CollisionIn (xs ys : List Bytes) : Prop :=
  ∃ x ∈ xs, ∃ y ∈ ys, x ≠ y ∧ H.hash x = H.hash y

theorem fin_chain_mem (n : Nat) (rs : List (Bytes × Nat)) (i : Nat) (hi : i < (fin H n rs).2.1) :
    chain H (fin H n rs).1 i ∈ finHashed H n rs := by
  have hm : chain H (fin H n rs).1 i ∈
      (List.range (fin H n rs).2.1).map (chain H (fin H n rs).1) :=
    List.mem_map.mpr ⟨i, List.mem_range.mpr hi, rfl⟩
  cases rs with
  | nil => exact hm
  | cons r rs => exact List.mem_append_left _ hm

/-- The last digests of two chains agree: the chains are the same, or there is a collision. -/
theorem fin_chain_eq (n m : Nat) (rs ts : List (Bytes × Nat)) (hrs : ∀ r ∈ rs, 0 < r.2)
    (hts : ∀ r ∈ ts, 0 < r.2)
    (h : chain H (fin H n rs).1 (fin H n rs).2.1 = chain H (fin H m ts).1 (fin H m ts).2.1) :
    ((fin H n rs).1 = (fin H m ts).1 ∧ (fin H n rs).2.1 = (fin H m ts).2.1) ∨
      CollisionIn H (finHashed H n rs) (finHashed H m ts) := by
  have hp := H.out_pos
  have b1 := fin_bounds H n rs hrs
  have b2 := fin_bounds H m ts hts
  have main : ∀ (n m : Nat) (rs ts : List (Bytes × Nat)), (∀ r ∈ rs, 0 < r.2) → (∀ r ∈ ts, 0 < r.2) →
      (fin H n rs).2.1 ≤ (fin H m ts).2.1 →
      chain H (fin H n rs).1 (fin H n rs).2.1 = chain H (fin H m ts).1 (fin H m ts).2.1 →
      ((fin H n rs).1 = (fin H m ts).1 ∧ (fin H n rs).2.1 = (fin H m ts).2.1) ∨
        CollisionIn H (finHashed H n rs) (finHashed H m ts) := by
    intro n m rs ts hrs hts hle h
    have b1 := fin_bounds H n rs hrs
    obtain ⟨d, hd⟩ := Nat.exists_eq_add_of_le hle
    rw [hd] at h
    rcases chain_back H _ _ _ _ h with h1 | ⟨i, hi, hne, hh⟩
    · rcases d with _ | d
      · exact .inl ⟨h1, by omega⟩
      · exfalso
        have hl := congrArg List.length h1
        rw [chain_length] at hl
        rcases b1.2.2.2 with h2 | h2 <;> omega
    · exact .inr ⟨_, fin_chain_mem H n rs i hi, _, fin_chain_mem H m ts (i + d) (by omega), hne, hh⟩
  rcases Nat.le_total (fin H n rs).2.1 (fin H m ts).2.1 with hle | hle
  · exact main n m rs ts hrs hts hle h
  · rcases main m n ts rs hts hrs hle h.symm with ⟨h1, h2⟩ | ⟨x, hx, y, hy, hne, hh⟩
    · exact .inl ⟨h1.symm, h2.symm⟩
    · exact .inr ⟨y, hy, x, hx, hne.symm, hh.symm⟩

theorem resume_inj (n m : Nat) (rs ts : List (Bytes × Nat)) (hrs : ∀ r ∈ rs, 0 < r.2)
    (hts : ∀ r ∈ ts, 0 < r.2)
    (h : resume H (fin H n rs).1 (fin H n rs).2.1 (fin H n rs).2.2 =
      resume H (fin H m ts).1 (fin H m ts).2.1 (fin H m ts).2.2) :
    (n = m ∧ rs = ts) ∨ CollisionIn H (finHashed H n rs) (finHashed H m ts) := by
  have hp := H.out_pos
  have hlt := H.out_lt
  induction rs generalizing ts with
  | nil =>
    have b1 := fin_bounds H n [] hrs
    have b2 := fin_bounds H m ts hts
    have hc : (chain H (fin H n []).1 (fin H n []).2.1).length =
        (chain H (fin H m ts).1 (fin H m ts).2.1).length := by
      have := congrArg List.length h
      simp only [resume, List.length_append, length_leBytes] at this
      omega
    obtain ⟨h1, h2⟩ := List.append_inj h hc
    rcases fin_chain_eq H n m [] ts hrs hts h1 with ⟨h3, h4⟩ | hcol
    · left
      have h5 := leBytes_inj (by omega) (by omega) h2
      have h6 : (fin H n []).2.2 = (fin H m ts).2.2 := by rw [h4] at h5 b1; omega
      cases ts with
      | nil => exact ⟨h6, rfl⟩
      | cons t ts =>
        exfalso
        have hl := congrArg List.length h3
        rcases b2.2.2.2 with h7 | h7
        · exact absurd h7.2 (by simp)
        · simp only [fin, List.length_nil] at hl h7
          omega
    · exact .inr hcol
  | cons r rs ih =>
    have b1 := fin_bounds H n (r :: rs) hrs
    have b2 := fin_bounds H m ts hts
    have hc : (chain H (fin H n (r :: rs)).1 (fin H n (r :: rs)).2.1).length =
        (chain H (fin H m ts).1 (fin H m ts).2.1).length := by
      have := congrArg List.length h
      simp only [resume, List.length_append, length_leBytes] at this
      omega
    obtain ⟨h1, h2⟩ := List.append_inj h hc
    rcases fin_chain_eq H n m (r :: rs) ts hrs hts h1 with ⟨h3, h4⟩ | hcol
    · have h5 := leBytes_inj (by omega) (by omega) h2
      have h6 : (fin H n (r :: rs)).2.2 = (fin H m ts).2.2 := by rw [h4] at h5 b1; omega
      cases ts with
      | nil =>
        exfalso
        have hl := congrArg List.length h3
        rcases b1.2.2.2 with h7 | h7
        · exact absurd h7.2 (by simp)
        · have : (fin H m []).1.length = 0 := rfl
          omega
      | cons t ts =>
        have hrs' : ∀ r ∈ rs, 0 < r.2 := fun r hr => hrs r (List.mem_cons_of_mem _ hr)
        have hts' : ∀ r ∈ ts, 0 < r.2 := fun r hr => hts r (List.mem_cons_of_mem _ hr)
        have c1 := fin_bounds H n rs hrs'
        have c2 := fin_bounds H m ts hts'
        obtain ⟨a, k⟩ := r
        obtain ⟨a', k'⟩ := t
        simp only [fin] at h3 h6
        obtain ⟨h7, h8⟩ := List.append_inj h3
          (by rw [resume_length H _ _ _ c1.1, resume_length H _ _ _ c2.1])
        rcases ih ts hrs' hts' h7 with ⟨h9, h10⟩ | ⟨x, hx, y, hy, hh⟩
        · exact .inl ⟨h9, by rw [h10, h8, h6]⟩
        · exact .inr ⟨x, List.mem_append_right _ hx, y, List.mem_append_right _ hy, hh⟩
    · exact .inr hcol

end Verif.Transcript
