import Verif.Hash.ModelHash

/-! What it means for a hasher to compute a hash: the interface that the wrappers rely on. -/

set_option linter.dupNamespace false

namespace Verif.Hash

variable {S Out : Type} {N : Nat}

/-- The digest computes the hash `h`: `R s m` says that a hasher in state `s` has read `m`. -/
structure Digest.Computes (D : Digest S Out) (h : Bytes → Out) (R : S → Bytes → Prop) : Prop where
  pos : 0 < D.blockSize
  new : R D.new []
  update : ∀ s m d, R s m → ∃ s', D.update s d = some s' ∧ R s' (m ++ d)
  finalize : ∀ s m, R s m → D.finalize s = some (h m)

/-- The same for `N` strings at once: they are read in pieces of equal lengths. -/
structure Multi.Computes (M : Multi S Out N) (h : Bytes → Out) (R : S → (Fin N → Bytes) → Prop) : Prop where
  new : R M.new fun _ => []
  update : ∀ s m d n, R s m → (∀ r, (d r).length = n) → ∃ s', M.update s d = some s' ∧ R s' fun r => m r ++ d r
  finalize : ∀ s m, R s m → M.finalize s = some fun r => h (m r)

end Verif.Hash
