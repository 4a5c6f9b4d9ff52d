import Mathlib.Algebra.Order.Group.Unbundled.Int
import Mathlib.Algebra.Order.Group.Abs
import Mathlib.Data.List.Nodup

/-! Model of the channels of trace emulation, crates/m3/src/emulate.rs. -/

namespace Verif.M3.Emulate

variable {α : Type} [DecidableEq α]

/-- `Channel`, crates/m3/src/emulate.rs:6-18: the ordered map from values to net multiplicities as a list of its entries;
the order of the keys, which the panic message shows, is left out.  Multiplicities are integers: overflow of `isize` is
left out. -/
abbrev Channel (α : Type) := List (α × Int)

/-- `Channel::default`, crates/m3/src/emulate.rs:11-17. -/
def Channel.new (α : Type) : Channel α := []

/-- `BTreeMap::get`. -/
def Channel.get (c : Channel α) (v : α) : Option Int := (c.find? fun p => p.1 = v).map (·.2)

/-- `BTreeMap::remove`. -/
def Channel.remove (c : Channel α) (v : α) : Channel α := c.filter fun p => p.1 ≠ v

/-- `BTreeMap::insert`, and writing through `get_mut`. -/
def Channel.insert (c : Channel α) (v : α) (n : Int) : Channel α := (v, n) :: c.remove v

/-- `Channel::push`, crates/m3/src/emulate.rs:21-35. -/
def Channel.push (c : Channel α) (v : α) : Channel α :=
  match c.get v with
  | some n => if n + 1 = 0 then c.remove v else c.insert v (n + 1)
  | none => c.insert v 1

/-- `Channel::pull`, crates/m3/src/emulate.rs:37-51. -/
def Channel.pull (c : Channel α) (v : α) : Channel α :=
  match c.get v with
  | some n => if n - 1 = 0 then c.remove v else c.insert v (n - 1)
  | none => c.insert v (-1)

/-- `Channel::is_balanced`, crates/m3/src/emulate.rs:53-55. -/
def Channel.isBalanced (c : Channel α) : Bool := c.isEmpty

/-- The values that `assert_balanced` lists as unbalanced pushes and pulls, with their excess,
crates/m3/src/emulate.rs:60-83; it panics unless the channel is balanced. -/
def Channel.assertBalanced (c : Channel α) : Except (List (α × Int) × List (α × Int)) Unit :=
  if c.isBalanced then .ok ()
  else .error ((c.filter fun p => 0 < p.2), ((c.filter fun p => ¬ 0 < p.2).map fun p => (p.1, abs p.2)))

/-- An operation on a channel. -/
inductive Op (α : Type) where
  | push (v : α)
  | pull (v : α)
  deriving DecidableEq

/-- A history of operations. -/
def run (c : Channel α) (ops : List (Op α)) : Channel α :=
  ops.foldl (fun c op => match op with | .push v => c.push v | .pull v => c.pull v) c

end Verif.M3.Emulate
