import Verif.Oracle.ModelRegistry
import Verif.Utils.LemmasSerialization
import Mathlib.Tactic.IntervalCases

/-! C85: serialization of transparent polynomials of any type. -/

namespace Verif.Registry

open Verif.Ser

variable {α : Type}

/-- The deserializers that are registered with a name. -/
def named (entries : List (Entry α)) (name : String) : List (R α) :=
  (entries.filter fun e => e.name = name).map Entry.deserializer

theorem named_append (l : List (Entry α)) (e : Entry α) (name : String) :
    named (l ++ [e]) name = if e.name = name then named l name ++ [e.deserializer] else named l name := by
  rw [named, List.filter_append, List.map_append]
  by_cases h : e.name = name <;> simp [named, h]

theorem registry_eq (entries : List (Entry α)) (name : String) :
    registry entries name = match named entries name with
      | [] => none
      | [d] => some (some d)
      | _ => some none := by
  induction entries using List.reverseRecOn with
  | nil => rfl
  | append_singleton l e ih =>
    rw [registry, List.foldl_append, named_append]
    show (if name = e.name then _ else registry l name) = _
    by_cases h : name = e.name
    · subst h
      rw [if_pos rfl, if_pos rfl]
      show (match registry l e.name with | none => _ | some _ => _) = _
      rw [ih]
      rcases named l e.name with _ | ⟨a, _ | ⟨b, t⟩⟩ <;> rfl
    · rw [if_neg h, if_neg (Ne.symm h), ih]

/-- What serializing a name gives is read back. -/
theorem str_roundtrip (name : String) (cap : Nat) (bs suffix : List UInt8) (h : serStr name cap = .ok bs) :
    deStr (bs ++ suffix) = .ok (name, suffix) := by
  by_cases hf : name.toUTF8.size ≤ u32Max
  · obtain ⟨bs', w, r⟩ := law_str.enc name hf
    rw [w cap] at h
    split at h
    · cases h
    · cases h; exact r suffix
  · obtain ⟨e, he⟩ := law_str.fail name hf cap
    rw [he] at h; cases h

theorem seq_ok {a b : W} {cap : Nat} {bs : List UInt8} (h : a.seq b cap = .ok bs) :
    ∃ x y cap', bs = x ++ y ∧ a cap = .ok x ∧ b cap' = .ok y := by
  rw [W.seq] at h
  rcases hx : a cap with e | x
  · rw [hx] at h; cases h
  · rw [hx] at h
    have e : (Except.ok x >>= fun x => do let y ← b (cap - x.length); Except.ok (x ++ y)) =
        (b (cap - x.length) >>= fun y => (Except.ok (x ++ y) : Except Err _)) := rfl
    rcases hy : b (cap - x.length) with e' | y
    · rw [e, hy] at h; cases h
    · rw [e, hy] at h
      cases h
      exact ⟨x, y, _, rfl, rfl, hy⟩

/-- What is written begins with the name, and the rest is what the type writes. -/
theorem erased_split (name : String) (body : W) (cap : Nat) (bs : List UInt8) (h : erasedSerialize name body cap = .ok bs) :
    ∃ x y cap', bs = x ++ y ∧ serStr name cap = .ok x ∧ body cap' = .ok y := seq_ok h

/-- C85: if exactly one deserializer is registered with the name of the type, and it reads what the type writes, then what is
written for a polynomial is read as that polynomial, whatever follows it. -/
theorem C85_roundtrip (entries : List (Entry α)) (name : String) (d : R α) (hd : named entries name = [d]) (body : W) (v : α)
    (hbody : ∀ cap bs, body cap = .ok bs → ∀ s, d (bs ++ s) = .ok (v, s)) (cap : Nat) (bs suffix : List UInt8)
    (h : erasedSerialize name body cap = .ok bs) : deserialize entries (bs ++ suffix) = .ok (v, suffix) := by
  obtain ⟨x, y, cap', rfl, hx, hy⟩ := erased_split name body cap bs h
  rw [deserialize, List.append_assoc, str_roundtrip name cap x (y ++ suffix) hx]
  simp only [registry_eq, hd, hbody cap' y hy suffix]

/-- C85: if the name is not registered, or more than once, what is written for a polynomial is rejected, with an error that
says which; it is never read by one of several deserializers. -/
theorem C85_refused (entries : List (Entry α)) (name : String) (body : W) (cap : Nat) (bs suffix : List UInt8)
    (h : erasedSerialize name body cap = .ok bs) :
    (named entries name = [] → deserialize entries (bs ++ suffix) = .error .notImplemented) ∧
    (2 ≤ (named entries name).length → deserialize entries (bs ++ suffix) = .error (.nameConflict name)) := by
  obtain ⟨x, y, cap', rfl, hx, hy⟩ := erased_split name body cap bs h
  rw [deserialize, List.append_assoc, str_roundtrip name cap x (y ++ suffix) hx]
  refine ⟨fun hn => ?_, fun hn => ?_⟩
  · simp only [registry_eq, hn]
  · simp only [registry_eq]
    rcases hl : named entries name with _ | ⟨a, _ | ⟨b, t⟩⟩
    · rw [hl] at hn; exact absurd hn (by simp)
    · rw [hl] at hn; exact absurd hn (by simp)
    · rfl

/-- C85: the order in which the entries are collected, which the program does not control, has no influence on what is read
from any input. -/
theorem C85_order (entries entries' : List (Entry α)) (h : entries.Perm entries') (buf : List UInt8) :
    deserialize entries buf = deserialize entries' buf := by
  have hr : registry entries = registry entries' := by
    funext name
    have hp : (named entries name).Perm (named entries' name) := (h.filter _).map _
    rw [registry_eq, registry_eq]
    rcases ha : named entries name with _ | ⟨a, _ | ⟨b, t⟩⟩
    · rw [ha] at hp; rw [List.nil_perm.1 hp]
    · rw [ha] at hp; rw [List.singleton_perm.1 hp]
    · rw [ha] at hp
      have hl := hp.length_eq
      rcases hb : named entries' name with _ | ⟨a', _ | ⟨b', t'⟩⟩
      · rw [hb] at hl; simp at hl
      · rw [hb] at hl; simp at hl
      · rfl
  rw [deserialize, deserialize, hr]

theorem put_ok {x bs : List UInt8} {cap : Nat} (h : put x cap = .ok bs) : bs = x := by
  rw [put] at h
  split at h
  · cases h
  · cases h; rfl

/-- A step begins with the index of its variant. -/
theorem step_head (m : Mode) (s : stepTy.Val) (cap : Nat) (bs : List UInt8) (h : stepTy.ser m s cap = .ok bs) :
    ∃ b l, bs = b :: l ∧ b < 5 := by
  have key : ∀ (i : Nat) (w : W), i < 5 → ((serUint 1 (i % 256)).seq w) cap = .ok bs → ∃ b l, bs = b :: l ∧ b < 5 := by
    intro i w hi h
    obtain ⟨x, y, _, rfl, hx, _⟩ := seq_ok h
    rw [put_ok hx]
    refine ⟨UInt8.ofNat (i % 256 % 256), y, rfl, ?_⟩
    interval_cases i <;> decide
  rcases s with s | s | s | s | s | s
  · exact key 0 _ (by decide) h
  · exact key 1 _ (by decide) h
  · exact key 2 _ (by decide) h
  · exact key 3 _ (by decide) h
  · exact key 4 _ (by decide) h
  · exact nomatch s

/-- A name that is read consists of the bytes after its length. -/
theorem deStr_bytes (n : Nat) (hn : n < 256 ^ 4) (buf rest : List UInt8) (name : String)
    (h : deStr (leBytes 4 n ++ buf) = .ok (name, rest)) : name.toByteArray.data.toList = buf.take n := by
  rw [deStr, R.bind, show deUsize (leBytes 4 n ++ buf) = .ok (n, buf) from reads_uint' hn buf] at h
  simp only [bind, Except.bind, R.bind, take] at h
  by_cases hl : buf.length < n
  · rw [if_pos hl] at h; cases h
  · rw [if_neg hl] at h
    change (match String.fromUTF8? ⟨⟨buf.take n⟩⟩ with
      | some s => R.pure s
      | none => R.fail .fromUtf8Error) (buf.drop n) = _ at h
    rcases hs : String.fromUTF8? ⟨⟨buf.take n⟩⟩ with _ | s
    · rw [hs] at h; cases h
    · rw [hs] at h
      cases h
      rw [String.fromUTF8?] at hs
      split at hs
      · cases hs; rfl
      · cases hs

/-- Finding: circuits are transparent polynomials too, but are written without a name, so that they are never read: the number
of steps and the first ones are taken for the name. Here the registered names begin with a character above U+0004, as all those
of the code do. -/
theorem C85_circuit_not_read (entries : List (Entry α))
    (hnames : ∀ e ∈ entries, ∃ b l, e.name.toByteArray.data.toList = b :: l ∧ 5 ≤ b) (m : Mode) (s : stepTy.Val)
    (steps : List stepTy.Val) (cap : Nat) (bs suffix : List UInt8) (h : circuitSerialize m (s :: steps) cap = .ok bs) :
    ∀ r, deserialize entries (bs ++ suffix) ≠ .ok r := by
  intro r hr
  obtain ⟨x, y, cap', rfl, hx, hy⟩ := seq_ok h
  rw [serUsize] at hx
  split at hx
  · rename_i hle
    rw [put_ok hx] at hr
    obtain ⟨y1, y2, _, rfl, hy1, _⟩ := seq_ok hy
    obtain ⟨b, l, rfl, hb⟩ := step_head m s _ _ hy1
    rw [deserialize, List.append_assoc] at hr
    split at hr
    · cases hr
    · rename_i name rest hname
      have hbytes := deStr_bytes _ (by omega) _ _ _ hname
      have hnil : named entries name = [] := by
        rw [named, List.map_eq_nil_iff, List.filter_eq_nil_iff]
        intro e he hc
        obtain ⟨b', l', h1, h2⟩ := hnames e he
        rw [of_decide_eq_true hc, hbytes] at h1
        cases h1
        exact absurd (UInt8.lt_of_lt_of_le hb h2) (UInt8.lt_irrefl _)
      simp only [registry_eq, hnil] at hr
      cases hr
  · cases hx

/-- The circuit of the first variable, with one type registered. -/
example : ∀ r, deserialize [⟨"Constant", deBool⟩] ([1, 0, 0, 0, 4, 0, 0, 0, 0] ++ []) ≠ .ok r :=
  C85_circuit_not_read [⟨"Constant", deBool⟩]
    (by
      intro e he
      rw [List.mem_singleton] at he
      subst he
      exact ⟨67, [111, 110, 115, 116, 97, 110, 116], by decide +kernel, by decide⟩)
    .native (.inr (.inr (.inr (.inr (.inl ((0 : Nat), ())))))) [] 9 _ [] (by decide +kernel)

/-- The hypotheses hold for two types, of which one is a bit. -/
example : deserialize [⟨"Constant", deBool⟩, ⟨"Powers", R.fail .notEnoughBytes⟩]
    [8, 0, 0, 0, 67, 111, 110, 115, 116, 97, 110, 116, 1, 7] = .ok (true, [7]) :=
  C85_roundtrip [⟨"Constant", deBool⟩, ⟨"Powers", R.fail .notEnoughBytes⟩] "Constant" deBool (by simp [named]) (serBool true)
    true (fun cap bs h s => by
      rw [serBool, if_pos rfl, serUint, put] at h
      split at h
      · cases h
      · cases h; rfl) 100 [8, 0, 0, 0, 67, 111, 110, 115, 116, 97, 110, 116, 1] [7] (by decide +kernel)

/-- A name that is registered twice is refused. -/
example : deserialize [⟨"Constant", deBool⟩, ⟨"Constant", R.pure true⟩]
    [8, 0, 0, 0, 67, 111, 110, 115, 116, 97, 110, 116, 1, 7] = .error (.nameConflict "Constant") :=
  (C85_refused [⟨"Constant", deBool⟩, ⟨"Constant", R.pure true⟩] "Constant" (serBool true) 100
    [8, 0, 0, 0, 67, 111, 110, 115, 116, 97, 110, 116, 1] [7] (by decide +kernel)).2 (by simp [named])

end Verif.Registry
