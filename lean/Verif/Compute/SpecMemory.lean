import Verif.Compute.ModelMemory

/-! Specification of memory handles: the addresses a handle stands for, and what reading, writing, splitting and dropping
handles mean for one memory without copies. -/

namespace Verif.Compute

/-- The address is one of those the handle stands for. -/
def Handle.Covers (h : Handle) (a : Nat) : Prop := h.start ≤ a ∧ a < h.start + h.len

/-- No address belongs to both handles. -/
def Apart (h h' : Handle) : Prop := ∀ a, ¬ (h.Covers a ∧ h'.Covers a)

variable {F : Type}

/-- The meaning of an operation on handles for one memory and the list of the regions that are alive: splitting and
dropping do not change the memory, writing changes one address. -/
def specStep (m : Nat → F) (rs : List (Nat × Nat)) : ViewOp F → Option ((Nat → F) × List (Nat × Nat))
  | .splitHalf k => rs[k]?.bind fun (s, l) =>
      if l.isPowerOfTwo ∧ 1 < l then some (m, rs.take k ++ (s, l / 2) :: (s + l / 2, l / 2) :: rs.drop (k + 1)) else none
  | .write k i x => rs[k]?.bind fun (s, l) => if i < l then some (Function.update m (s + i) x, rs) else none
  | .drop k => rs[k]?.bind fun _ => some (m, rs.take k ++ rs.drop (k + 1))

/-- The meaning of a history of operations. -/
def specRun : (Nat → F) → List (Nat × Nat) → List (ViewOp F) → Option ((Nat → F) × List (Nat × Nat))
  | m, rs, [] => some (m, rs)
  | m, rs, op :: ops => (specStep m rs op).bind fun p => specRun p.1 p.2 ops

end Verif.Compute
