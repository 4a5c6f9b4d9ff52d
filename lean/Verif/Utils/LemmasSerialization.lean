import Verif.Utils.SpecSerialization
import Verif.Field.LemmasAes

namespace Verif.Ser
open Verif.Field

/-! ## Law of a serializer/deserializer pair -/

/-- `bs` is what the serializer writes when there is room. -/
def Writes (w : W) (bs : List UInt8) : Prop :=
  ∀ cap, w cap = if cap < bs.length then .error .writeBufferFull else .ok bs

def Reads {α : Type} (d : R α) (bs : List UInt8) (v : α) : Prop :=
  ∀ s, d (bs ++ s) = .ok (v, s)

def Fails (w : W) : Prop := ∀ cap, ∃ e, w cap = .error e

/-- The reader consumes a definite prefix, independently of what follows, and reports missing bytes
on every strict prefix of it. -/
def Framed {α : Type} (d : R α) : Prop :=
  ∀ b v rest, d b = .ok (v, rest) →
    ∃ used, b = used ++ rest ∧ Reads d used v ∧
      ∀ p, p <+: used → p ≠ used → d p = .error .notEnoughBytes

structure Law {α : Type} (s : α → W) (d : R α) (fits : α → Prop) : Prop where
  enc : ∀ v, fits v → ∃ bs, Writes (s v) bs ∧ Reads d bs v
  fail : ∀ v, ¬ fits v → Fails (s v)
  framed : Framed d

theorem writes_put (bs : List UInt8) : Writes (put bs) bs := fun _ => rfl

theorem writes_done : Writes W.done [] := fun cap => by simp [W.done]

theorem writes_seq {a b : W} {x y : List UInt8} (ha : Writes a x) (hb : Writes b y) :
    Writes (a.seq b) (x ++ y) := by
  intro cap
  simp only [W.seq, ha cap, List.length_append]
  by_cases h : cap < x.length
  · rw [if_pos h, if_pos (show cap < x.length + y.length by omega)]; rfl
  · rw [if_neg h]
    show Except.bind (b (cap - x.length)) (fun v => Except.ok (x ++ v)) = _
    rw [hb (cap - x.length)]
    by_cases h2 : cap - x.length < y.length
    · rw [if_pos h2, if_pos (show cap < x.length + y.length by omega)]; rfl
    · rw [if_neg h2, if_neg (show ¬ cap < x.length + y.length by omega)]; rfl

theorem fails_seq_left {a b : W} (ha : Fails a) : Fails (a.seq b) := by
  intro cap
  obtain ⟨e, he⟩ := ha cap
  exact ⟨e, by simp [W.seq, he, bind, Except.bind]⟩

theorem fails_seq_right {a b : W} (hb : Fails b) : Fails (a.seq b) := by
  intro cap
  rcases ha : a cap with e | x
  · exact ⟨e, by simp [W.seq, ha, bind, Except.bind]⟩
  · obtain ⟨e, he⟩ := hb (cap - x.length)
    exact ⟨e, by simp [W.seq, ha, he, bind, Except.bind]⟩

theorem reads_pure {α : Type} (v : α) : Reads (R.pure v) [] v := fun _ => rfl

theorem reads_bind {α β : Type} {a : R α} {f : α → R β} {x y : List UInt8} {v : α} {w : β}
    (ha : Reads a x v) (hb : Reads (f v) y w) : Reads (a.bind f) (x ++ y) w := by
  intro s
  simp only [R.bind, List.append_assoc, ha (y ++ s), bind, Except.bind]
  exact hb s

theorem reads_map {α β : Type} {a : R α} (f : α → β) {x : List UInt8} {v : α}
    (ha : Reads a x v) : Reads (a.map f) x (f v) := by
  have := reads_bind (f := fun x => R.pure (f x)) ha (reads_pure (f v))
  simpa [R.map] using this

theorem framed_pure {α : Type} (v : α) : Framed (R.pure v) := by
  intro b w rest h
  simp only [R.pure, Except.ok.injEq, Prod.mk.injEq] at h
  obtain ⟨rfl, rfl⟩ := h
  refine ⟨[], rfl, reads_pure v, fun p hp hne => ?_⟩
  exact absurd (List.prefix_nil.mp hp) hne

theorem framed_fail {α : Type} (e : Err) : Framed (R.fail e : R α) := by
  intro b w rest h
  simp [R.fail] at h

theorem framed_bind {α β : Type} {a : R α} {f : α → R β} (ha : Framed a) (hf : ∀ v, Framed (f v)) :
    Framed (a.bind f) := by
  intro b w rest h
  rcases hb : a b with e | ⟨v, mid⟩
  · simp [R.bind, hb, bind, Except.bind] at h
  · simp only [R.bind, hb, bind, Except.bind] at h
    obtain ⟨u1, rfl, r1, p1⟩ := ha _ _ _ hb
    obtain ⟨u2, rfl, r2, p2⟩ := hf v _ _ _ h
    refine ⟨u1 ++ u2, by simp, reads_bind r1 r2, fun p hp hne => ?_⟩
    rcases Nat.lt_or_ge p.length u1.length with hlt | hge
    · have hpre : p <+: u1 := by
        refine List.prefix_of_prefix_length_le hp (List.prefix_append _ _) hlt.le
      have := p1 p hpre (fun he => by rw [he] at hlt; exact lt_irrefl _ hlt)
      simp [R.bind, this, bind, Except.bind]
    · have hpre : u1 <+: p :=
        List.prefix_of_prefix_length_le (List.prefix_append _ _) hp hge
      obtain ⟨q, rfl⟩ := hpre
      have hq : q <+: u2 := (List.prefix_append_right_inj u1).mp hp
      have := p2 q hq (fun he => hne (by rw [he]))
      simp only [R.bind, r1 q, bind, Except.bind]
      exact this

theorem framed_map {α β : Type} {a : R α} (f : α → β) (ha : Framed a) : Framed (a.map f) :=
  framed_bind ha fun _ => framed_pure _

theorem framed_take (n : Nat) : Framed (take n) := by
  intro b v rest h
  rw [take] at h
  split at h
  · simp at h
  · rename_i hlen
    simp only [Except.ok.injEq, Prod.mk.injEq] at h
    obtain ⟨rfl, rfl⟩ := h
    refine ⟨b.take n, by simp, fun s => ?_, fun p hp hne => ?_⟩
    · have hl : (b.take n).length = n := by rw [List.length_take]; omega
      rw [take, if_neg (by rw [List.length_append]; omega), List.take_left' hl, List.drop_left' hl]
    · rw [take, if_pos]
      have hle := hp.length_le
      have : (b.take n).length = n := by rw [List.length_take]; omega
      rcases Nat.lt_or_ge p.length n with h | h
      · exact h
      · exact absurd (hp.eq_of_length (by omega)) hne

theorem reads_take (bs : List UInt8) : Reads (take bs.length) bs bs := by
  intro s
  rw [take, if_neg (by simp)]
  simp

/-! ## Little-endian bytes -/

theorem length_leBytes : ∀ (n x : Nat), (leBytes n x).length = n
  | 0, _ => rfl
  | n + 1, x => by rw [leBytes, List.length_cons, length_leBytes n]

theorem ofLeBytes_leBytes : ∀ (n x : Nat), ofLeBytes (leBytes n x) = x % 256 ^ n
  | 0, x => by simp [leBytes, ofLeBytes, Nat.mod_one]
  | n + 1, x => by
    rw [leBytes, ofLeBytes, ofLeBytes_leBytes n, UInt8.toNat_ofNat_of_lt' (Nat.mod_lt _ (by decide)),
      pow_succ, Nat.mul_comm (256 ^ n), Nat.mod_mul]

theorem ofLeBytes_lt : ∀ (bs : List UInt8), ofLeBytes bs < 256 ^ bs.length
  | [] => by simp [ofLeBytes]
  | b :: bs => by
    have h := ofLeBytes_lt bs
    have hb := b.toNat_lt
    rw [ofLeBytes, List.length_cons, pow_succ]
    omega

theorem writes_uint (n x : Nat) : Writes (serUint n x) (leBytes n x) := writes_put _

theorem reads_uint (n x : Nat) : Reads (deUint n) (leBytes n x) (x % 256 ^ n) := by
  have h := reads_take (leBytes n x)
  rw [length_leBytes] at h
  have := reads_map ofLeBytes h
  rwa [ofLeBytes_leBytes] at this

theorem framed_uint (n : Nat) : Framed (deUint n) := framed_map _ (framed_take n)

theorem reads_uint' {n x : Nat} (h : x < 256 ^ n) : Reads (deUint n) (leBytes n x) x := by
  have := reads_uint n x
  rwa [Nat.mod_eq_of_lt h] at this

/-! ## Laws of the primitive types -/

theorem law_usize : Law serUsize deUsize (fun x => x ≤ u32Max) where
  enc x h := ⟨leBytes 4 x, fun cap => by
      rw [serUsize, if_pos (by exact h)]; exact writes_uint 4 x cap,
    reads_uint' (n := 4) (by rw [u32Max] at h; omega)⟩
  fail x h cap := ⟨_, by rw [serUsize, if_neg (by exact h)]⟩
  framed := framed_uint 4

theorem law_bool : Law serBool deBool (fun _ => True) where
  enc b _ := ⟨leBytes 1 (if b then 1 else 0), writes_uint _ _, by
    have := reads_map (fun x => x != 0) (reads_uint' (n := 1) (x := if b then 1 else 0) (by split <;> decide))
    cases b <;> exact this⟩
  fail _ h := absurd trivial h
  framed := framed_map _ (framed_uint 1)

theorem law_str : Law serStr deStr (fun s => s.toUTF8.size ≤ u32Max) where
  enc s h := by
    have hlen : s.toByteArray.data.toList.length ≤ u32Max := by
      rw [String.toUTF8_eq_toByteArray] at h
      exact h
    obtain ⟨bl, wl, rl⟩ := law_usize.enc _ hlen
    refine ⟨_, writes_seq wl (writes_put _), reads_bind rl ?_⟩
    have h2 := reads_take s.toByteArray.data.toList
    have h3 : Reads (match String.fromUTF8? ⟨⟨s.toByteArray.data.toList⟩⟩ with
      | some s => R.pure s
      | none => R.fail .fromUtf8Error) [] s := by
      have e : (⟨⟨s.toByteArray.data.toList⟩⟩ : ByteArray) = s.toByteArray := rfl
      rw [e, String.fromUTF8?, dif_pos s.isValidUTF8]
      exact reads_pure s
    have := reads_bind (f := fun bs => match String.fromUTF8? ⟨⟨bs⟩⟩ with
      | some s => R.pure s
      | none => R.fail .fromUtf8Error) h2 h3
    rw [List.append_nil] at this
    exact this
  fail s h := by
    refine fails_seq_left (law_usize.fail _ fun hc => h ?_)
    rw [String.toUTF8_eq_toByteArray]
    exact hc
  framed := by
    refine framed_bind (framed_uint 4) fun len => framed_bind (framed_take len) fun bs => ?_
    split
    · exact framed_pure _
    · exact framed_fail _

theorem law_items {α : Type} {s : α → W} {d : R α} {fits : α → Prop} (h : Law s d fits) :
    (∀ xs : List α, (∀ x ∈ xs, fits x) → ∃ bs, Writes (serItems s xs) bs ∧
      Reads (deItems d xs.length) bs xs) ∧
    (∀ xs : List α, ¬ (∀ x ∈ xs, fits x) → Fails (serItems s xs)) ∧
    ∀ n, Framed (deItems d n) := by
  refine ⟨?_, ?_, ?_⟩
  · intro xs
    induction xs with
    | nil => exact fun _ => ⟨[], writes_done, reads_pure _⟩
    | cons x xs ih =>
      intro hx
      obtain ⟨b1, w1, r1⟩ := h.enc x (hx x List.mem_cons_self)
      obtain ⟨b2, w2, r2⟩ := ih fun y hy => hx y (List.mem_cons_of_mem _ hy)
      exact ⟨b1 ++ b2, writes_seq w1 w2, reads_bind r1 (reads_map _ r2)⟩
  · intro xs
    induction xs with
    | nil => exact fun hc => absurd (fun x hx => absurd hx List.not_mem_nil) hc
    | cons x xs ih =>
      intro hc
      by_cases hx : fits x
      · refine fails_seq_right (ih fun h2 => hc fun y hy => ?_)
        rcases List.mem_cons.mp hy with rfl | hy
        · exact hx
        · exact h2 y hy
      · exact fails_seq_left (h.fail x hx)
  · intro n
    induction n with
    | zero => exact framed_pure _
    | succ n ih => exact framed_bind h.framed fun _ => framed_map _ ih

theorem law_vec {α : Type} {s : α → W} {d : R α} {fits : α → Prop} (h : Law s d fits) :
    Law (serVec s) (deVec d) (fun xs => xs.length ≤ u32Max ∧ ∀ x ∈ xs, fits x) where
  enc xs hx := by
    obtain ⟨b1, w1, r1⟩ := law_usize.enc _ hx.1
    obtain ⟨b2, w2, r2⟩ := (law_items h).1 xs hx.2
    exact ⟨_, writes_seq w1 w2, reads_bind r1 r2⟩
  fail xs hc := by
    by_cases h1 : xs.length ≤ u32Max
    · exact fails_seq_right ((law_items h).2.1 xs fun h2 => hc ⟨h1, h2⟩)
    · exact fails_seq_left (law_usize.fail _ h1)
  framed := framed_bind (framed_uint 4) (law_items h).2.2

theorem law_opt {α : Type} {s : α → W} {d : R α} {fits : α → Prop} (h : Law s d fits) :
    Law (serOpt s) (deOpt d) (fun x => ∀ y, x = some y → fits y) where
  enc x hx := by
    cases x with
    | none =>
      obtain ⟨b1, w1, r1⟩ := law_bool.enc false trivial
      have := reads_bind (f := fun t => if t then d.map some else R.pure none) r1 (reads_pure _)
      rw [List.append_nil] at this
      exact ⟨b1, w1, this⟩
    | some v =>
      obtain ⟨b1, w1, r1⟩ := law_bool.enc true trivial
      obtain ⟨b2, w2, r2⟩ := h.enc v (hx v rfl)
      exact ⟨_, writes_seq w1 w2, reads_bind r1 (reads_map some r2)⟩
  fail x hc := by
    cases x with
    | none => exact absurd (fun y hy => by cases hy) hc
    | some v =>
      refine fails_seq_right (h.fail v fun hv => hc fun y hy => ?_)
      cases hy; exact hv
  framed := by
    refine framed_bind law_bool.framed fun t => ?_
    split
    · exact framed_map _ h.framed
    · exact framed_pure _

theorem law_pair {α β : Type} {s : α → W} {d : R α} {fits : α → Prop} {s' : β → W} {d' : R β}
    {fits' : β → Prop} (h : Law s d fits) (h' : Law s' d' fits') :
    Law (serPair s s') (dePair d d') (fun p => fits p.1 ∧ fits' p.2) where
  enc p hp := by
    obtain ⟨b1, w1, r1⟩ := h.enc _ hp.1
    obtain ⟨b2, w2, r2⟩ := h'.enc _ hp.2
    exact ⟨_, writes_seq w1 w2, reads_bind r1 (reads_map _ r2)⟩
  fail p hc := by
    by_cases h1 : fits p.1
    · exact fails_seq_right (h'.fail _ fun h2 => hc ⟨h1, h2⟩)
    · exact fails_seq_left (h.fail _ h1)
  framed := framed_bind h.framed fun _ => framed_map _ h'.framed

theorem law_array (n : Nat) :
    Law (fun x : { l : List UInt8 // l.length = n } => put x.val) (deArray n) (fun _ => True) where
  enc x _ := ⟨x.val, writes_put _, fun s => by
    obtain ⟨l, rfl⟩ := x
    simp [deArray]⟩
  fail _ h := absurd trivial h
  framed := by
    intro b v rest h
    rw [deArray] at h
    split at h
    · simp at h
    · rename_i hlen
      simp only [Except.ok.injEq, Prod.mk.injEq] at h
      obtain ⟨rfl, rfl⟩ := h
      have hl : (b.take n).length = n := by rw [List.length_take]; omega
      refine ⟨b.take n, by simp, fun s => ?_, fun p hp hne => ?_⟩
      · rw [deArray, dif_neg (by rw [List.length_append]; omega)]
        simp only [List.take_left' hl, List.drop_left' hl]
      · rw [deArray, dif_pos]
        have hle := hp.length_le
        rcases Nat.lt_or_ge p.length n with h | h
        · exact h
        · exact absurd (hp.eq_of_length (by omega)) hne

theorem law_bitvec (n w : Nat) (hw : 2 ^ w ≤ 256 ^ n) :
    Law (fun x : BitVec w => serUint n x.toNat) ((deUint n).map (BitVec.ofNat w))
      (fun _ => True) where
  enc x _ := ⟨_, writes_uint _ _, by
    have := reads_map (BitVec.ofNat w) (reads_uint' (n := n) (x := x.toNat) (by
      have := x.isLt; omega))
    rwa [BitVec.ofNat_toNat, BitVec.setWidth_eq] at this⟩
  fail _ h := absurd trivial h
  framed := framed_map _ (framed_uint n)

theorem law_aes (m : Mode) (n : Nat) : Law (serAes m (n := n)) (deAes m n) (fun _ => True) := by
  have hw : 2 ^ 2 ^ (3 + n) ≤ 256 ^ 2 ^ n := by
    rw [show (256 : Nat) = 2 ^ 8 by norm_num, ← pow_mul, pow_add]; norm_num
  cases m with
  | native => exact law_bitvec (2 ^ n) (2 ^ (3 + n)) hw
  | canonicalTower =>
    have L := law_bitvec (2 ^ n) (2 ^ (3 + n)) hw
    refine ⟨fun x _ => ?_, fun _ h => absurd trivial h, framed_map _ (framed_uint _)⟩
    refine ⟨_, writes_uint _ _, ?_⟩
    have := reads_map (fun v => Aes.ofBinary (n := n) (BitVec.ofNat _ v))
      (reads_uint' (n := 2 ^ n) (x := (Aes.toBinary x).toNat) (by
        have := (Aes.toBinary x).isLt; omega))
    rwa [BitVec.ofNat_toNat, BitVec.setWidth_eq, Aes.ofBinary_toBinary] at this

/-! ## All types -/

mutual
theorem framed_ty (m : Mode) : (t : Ty) → Framed (t.de m)
  | .uint _ => by rw [Ty.de]; exact framed_map _ (framed_uint _)
  | .usize => by rw [Ty.de]; exact framed_uint _
  | .bool => by rw [Ty.de]; exact law_bool.framed
  | .phantom => by rw [Ty.de]; exact framed_pure _
  | .str => by rw [Ty.de]; exact law_str.framed
  | .vec t => by
    rw [Ty.de]
    have h := framed_ty m t
    exact framed_bind (framed_uint 4) fun n => by
      induction n with
      | zero => exact framed_pure _
      | succ n ih => exact framed_bind h fun _ => framed_map _ ih
  | .opt t => by
    rw [Ty.de]
    refine framed_bind law_bool.framed fun b => ?_
    split
    · exact framed_map _ (framed_ty m t)
    · exact framed_pure _
  | .pair a b => by
    rw [Ty.de]; exact framed_bind (framed_ty m a) fun _ => framed_map _ (framed_ty m b)
  | .bytes n => by rw [Ty.de]; exact (law_array n).framed
  | .small w => by rw [Ty.de]; exact framed_map _ (framed_uint _)
  | .aes n => by rw [Ty.de]; exact (law_aes m n).framed
  | .struct fs => by rw [Ty.de]; exact framed_fields m fs
  | .enum vs => by
    rw [Ty.de]; exact framed_bind (framed_uint 1) fun idx => framed_variants m vs 0 idx

theorem framed_fields (m : Mode) : (fs : Fields) → Framed (fs.de m)
  | .nil => by rw [Fields.de]; exact framed_pure _
  | .cons t fs => by
    rw [Fields.de]; exact framed_bind (framed_ty m t) fun _ => framed_map _ (framed_fields m fs)

theorem framed_variants (m : Mode) : (vs : Variants) → (i idx : Nat) → Framed (vs.de m i idx)
  | .nil, _, _ => by rw [Variants.de]; exact framed_fail _
  | .cons fs vs, i, idx => by
    rw [Variants.de]
    split
    · exact framed_map _ (framed_fields m fs)
    · exact framed_map _ (framed_variants m vs _ _)
end

/-- What the law says of an enum whose first variant has index `i`. -/
structure VLaw (m : Mode) (vs : Variants) (i : Nat) : Prop where
  enc : ∀ v, vs.Fits v → ∃ idx bs, i ≤ idx ∧ idx < i + vs.count ∧
    Writes (vs.ser m i v) (leBytes 1 (idx % 256) ++ bs) ∧ Reads (vs.de m i (idx % 256)) bs v
  fail : ∀ v, ¬ vs.Fits v → Fails (vs.ser m i v)

mutual
theorem law_ty (m : Mode) : (t : Ty) → t.Supported → Law (t.ser m) (t.de m) t.Fits
  | .uint n, _ => by
    have e : 2 ^ (8 * n) ≤ 256 ^ n := by
      rw [show (256 : Nat) = 2 ^ 8 by norm_num, ← pow_mul]
    exact law_bitvec n (8 * n) e
  | .usize, _ => by exact law_usize
  | .bool, _ => by exact law_bool
  | .phantom, _ => by
    exact ⟨fun _ _ => ⟨[], writes_done, reads_pure _⟩, fun _ h => absurd trivial h, framed_pure _⟩
  | .str, _ => by exact law_str
  | .vec t, h => by
    unfold Ty.Supported at h
    exact law_vec (law_ty m t h)
  | .opt t, h => by
    unfold Ty.Supported at h
    exact law_opt (law_ty m t h)
  | .pair a b, h => by
    unfold Ty.Supported at h
    exact law_pair (law_ty m a h.1) (law_ty m b h.2)
  | .bytes n, _ => by exact law_array n
  | .small w, h => by
    unfold Ty.Supported at h
    refine law_bitvec 1 w ?_
    calc 2 ^ w ≤ 2 ^ 8 := Nat.pow_le_pow_right (by omega) (by omega)
      _ ≤ 256 ^ 1 := by norm_num
  | .aes n, _ => by exact law_aes m n
  | .struct fs, h => by
    unfold Ty.Supported at h
    exact law_fields m fs h
  | .enum vs, h => by
    unfold Ty.Supported at h
    have L := law_variants m vs 0 h.1 (by omega)
    refine ⟨fun v hv => ?_, fun v hv => L.fail v hv,
      framed_bind (framed_uint 1) fun idx => framed_variants m vs 0 idx⟩
    obtain ⟨idx, bs, _, hlt, hw, hr⟩ := L.enc v hv
    exact ⟨_, hw, reads_bind (reads_uint' (n := 1) (by have := Nat.mod_lt idx (show 0 < 256 by omega); omega)) hr⟩

theorem law_fields (m : Mode) : (fs : Fields) → fs.Supported → Law (fs.ser m) (fs.de m) fs.Fits
  | .nil, _ => by
    exact ⟨fun _ _ => ⟨[], writes_done, reads_pure _⟩, fun _ h => absurd trivial h, framed_pure _⟩
  | .cons t fs, h => by
    unfold Fields.Supported at h
    have L := law_pair (law_ty m t h.1) (law_fields m fs h.2)
    exact L

theorem law_variants (m : Mode) : (vs : Variants) → (i : Nat) → vs.Supported →
    i + vs.count ≤ 256 → VLaw m vs i
  | .nil, _, _, _ => ⟨fun v => Empty.elim v, fun v => Empty.elim v⟩
  | .cons fs vs, i, h, hc => by
    unfold Variants.Supported at h
    unfold Variants.count at hc
    have L := law_fields m fs h.1
    have V := law_variants m vs (i + 1) h.2 (by omega)
    refine ⟨fun v hv => ?_, fun v hv => ?_⟩
    · cases v with
      | inl x =>
        obtain ⟨bs, w, r⟩ := L.enc x hv
        refine ⟨i, bs, le_rfl, by unfold Variants.count; omega, ?_, ?_⟩
        · exact writes_seq (writes_uint _ _) w
        · unfold Variants.de; rw [if_pos rfl]; exact reads_map _ r
      | inr x =>
        obtain ⟨idx, bs, h1, h2, w, r⟩ := V.enc x hv
        refine ⟨idx, bs, by omega, by unfold Variants.count; omega, ?_, ?_⟩
        · exact w
        · unfold Variants.de; rw [if_neg (by omega)]; exact reads_map _ r
    · cases v with
      | inl x =>
        exact fails_seq_right (L.fail x hv)
      | inr x =>
        exact V.fail x hv
end

end Verif.Ser
