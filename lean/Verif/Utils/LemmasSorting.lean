import Verif.Utils.ModelSorting
import Mathlib.Data.List.Sort
import Mathlib.Data.List.NodupEquivFin

namespace Verif.Sorting
open List (Perm)
open scoped List

theorem sorted_aux {α : Type} (objs : List α) (le : Nat × α → Nat × α → Bool)
    (trans : ∀ a b c, le a b = true → le b c = true → le a c = true)
    (total : ∀ a b, (le a b || le b a) = true)
    (out : List (Nat × α)) (ho : out = (objs.zipIdx.map fun p => (p.2, p.1)).mergeSort le) :
    out.map Prod.fst ~ List.range objs.length ∧
    (∀ p ∈ out, objs[p.1]? = some p.2) ∧
    out.length = objs.length ∧
    (∀ (i j : Nat) (hij : i < j) (hj : j < out.length),
      le out[i] out[j] = true ∧ (le out[j] out[i] = true → out[i].1 < out[j].1)) := by
  subst ho
  set ind := objs.zipIdx.map fun p => (p.2, p.1) with hind
  have hperm : ind.mergeSort le ~ ind := List.mergeSort_perm ind le
  have hfst : ind.map Prod.fst = List.range objs.length := by
    rw [hind, List.map_map]
    rw [show (Prod.fst ∘ fun p : α × Nat => (p.2, p.1)) = Prod.snd from rfl]
    rw [List.zipIdx_map_snd, List.range_eq_range']
  have hmem : ∀ p ∈ ind, objs[p.1]? = some p.2 := by
    intro p hp
    rw [hind, List.mem_map] at hp
    obtain ⟨q, hq, rfl⟩ := hp
    exact List.mem_zipIdx_iff_getElem?.mp hq
  refine ⟨?_, fun p hp => hmem p (hperm.mem_iff.mp hp), ?_, ?_⟩
  · rw [← hfst]; exact hperm.map _
  · rw [hperm.length_eq, hind]; simp
  · intro i j hij hj
    have hpw : (ind.mergeSort le).Pairwise (fun a b => le a b = true) :=
      List.pairwise_mergeSort trans total ind
    have hij' : le (ind.mergeSort le)[i] (ind.mergeSort le)[j] = true :=
      List.pairwise_iff_getElem.mp hpw i j (by omega) hj hij
    refine ⟨hij', fun hji => ?_⟩
    by_contra hlt
    -- the two original positions
    have ha := hperm.mem_iff.mp (List.getElem_mem (l := ind.mergeSort le) (n := i) (by omega))
    have hb := hperm.mem_iff.mp (List.getElem_mem (l := ind.mergeSort le) (n := j) hj)
    set a := (ind.mergeSort le)[i] with hadef
    set b := (ind.mergeSort le)[j] with hbdef
    have hnd : (ind.mergeSort le).Nodup := by
      refine (hperm.nodup_iff).mpr (List.Nodup.of_map Prod.fst ?_)
      rw [hfst]; exact List.nodup_range
    have hne : a ≠ b := by
      intro h
      have := (List.Nodup.getElem_inj_iff hnd).mp h
      omega
    have hne1 : a.1 ≠ b.1 := by
      intro h
      have h1 := hmem a ha
      have h2 := hmem b hb
      rw [h, h2] at h1
      exact hne (Prod.ext h (Option.some.inj h1.symm))
    -- `b` is before `a` in `ind`, so it is before `a` in the output too
    have hsub : [b, a].Sublist ind := by
      have pos : ∀ (p : Nat × α), p ∈ ind → ind[p.1]? = some p := by
        intro p hp
        have := hmem p hp
        rw [hind, List.getElem?_map, List.getElem?_zipIdx, this]
        simp
      have hpb := pos b hb
      have hpa := pos a ha
      obtain ⟨hlb, eb⟩ := List.getElem?_eq_some_iff.mp hpb
      obtain ⟨hla, ea⟩ := List.getElem?_eq_some_iff.mp hpa
      rw [List.sublist_iff_exists_fin_orderEmbedding_get_eq]
      refine ⟨OrderEmbedding.ofStrictMono (fun t : Fin 2 => if t = 0 then ⟨b.1, hlb⟩ else ⟨a.1, hla⟩)
        ?_, ?_⟩
      · intro x y hxy
        match x, y with
        | 0, 0 => exact absurd hxy (lt_irrefl _)
        | 0, 1 => show b.1 < a.1; omega
        | 1, 0 => exact absurd (show (1 : Nat) < 0 from hxy) (by omega)
        | 1, 1 => exact absurd hxy (lt_irrefl _)
      · intro t
        match t with
        | ⟨0, _⟩ => exact eb.symm
        | ⟨1, _⟩ => exact ea.symm
    have hsub' := List.pair_sublist_mergeSort trans total hji hsub
    -- but `a` is at `i < j`
    obtain ⟨f, hf⟩ := (List.sublist_iff_exists_fin_orderEmbedding_get_eq).mp hsub'
    have h0 := hf ⟨0, by simp⟩
    have h1 := hf ⟨1, by simp⟩
    have e0 : (f ⟨0, by simp⟩).val = j :=
      (List.Nodup.getElem_inj_iff hnd (hi := (f ⟨0, by simp⟩).isLt) (hj := hj)).mp h0.symm
    have e1 : (f ⟨1, by simp⟩).val = i :=
      (List.Nodup.getElem_inj_iff hnd (hi := (f ⟨1, by simp⟩).isLt) (hj := by omega)).mp h1.symm
    have hlt' : f ⟨0, by simp⟩ < f ⟨1, by simp⟩ := f.strictMono (by simp)
    have : (f ⟨0, by simp⟩).val < (f ⟨1, by simp⟩).val := hlt'
    omega

end Verif.Sorting
