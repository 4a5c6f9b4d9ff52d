import Verif.Channel.SpecChannel
import Mathlib.Algebra.Order.Ring.Int
import Mathlib.Algebra.BigOperators.Group.List.Basic
import Mathlib.Data.List.Forall2
import Mathlib.Data.List.Nodup
import Mathlib.Tactic.Ring

set_option linter.dupNamespace false
set_option linter.unusedSectionVars false

/-! Lemmas on the channel validation. -/

namespace Verif.Channel

variable {F : Type} [DecidableEq F]

/-! ### The map of multiplicities -/

/-- The value of a key, zero when it is absent. -/
def lookup (m : List (List F × Int)) (t : List F) : Int :=
  match m with
  | [] => 0
  | (k, v) :: r => if k = t then v else lookup r t

theorem i64_ok {checks : Bool} {x : Int} (h1 : -2 ^ 63 ≤ x) (h2 : x < 2 ^ 63) : i64 checks x = some x :=
  if_pos ⟨h1, h2⟩

theorem wrapI64_of_lt {n : Nat} (h : (n : Int) < 2 ^ 63) : wrapI64 n = n := by
  unfold wrapI64; omega

theorem entryAdd_ok (checks : Bool) (key : List F) (delta : Int) (m : List (List F × Int))
    (h1 : -2 ^ 63 ≤ lookup m key + delta) (h2 : lookup m key + delta < 2 ^ 63) (hn : (m.map (·.1)).Nodup) :
    ∃ m', entryAdd checks key delta m = some m' ∧ (m'.map (·.1)).Nodup ∧
      (∀ t, lookup m' t = lookup m t + if t = key then delta else 0) ∧
      ∀ k ∈ m'.map (·.1), k = key ∨ k ∈ m.map (·.1) := by
  induction m with
  | nil =>
    refine ⟨[(key, 0 + delta)], ?_, by simp, fun t => ?_, by simp⟩
    · show (i64 checks (0 + delta)).map _ = _
      rw [i64_ok (x := 0 + delta) h1 h2]; rfl
    · simp only [lookup, eq_comm (a := t), zero_add]
  | cons e m ih =>
    obtain ⟨k, v⟩ := e
    simp only [List.map_cons, List.nodup_cons] at hn
    simp only [lookup] at h1 h2
    by_cases hk : k = key
    · subst hk
      rw [if_pos rfl] at h1 h2
      refine ⟨(k, v + delta) :: m, ?_, by simpa using hn, fun t => ?_, by simp⟩
      · unfold entryAdd
        rw [if_pos rfl, i64_ok h1 h2]; rfl
      · simp only [lookup]
        by_cases ht : k = t
        · rw [if_pos ht, if_pos ht, if_pos ht.symm]
        · rw [if_neg ht, if_neg ht, if_neg (Ne.symm ht), add_zero]
    · rw [if_neg hk] at h1 h2
      obtain ⟨m', e1, e2, e3, e4⟩ := ih h1 h2 hn.2
      refine ⟨(k, v) :: m', ?_, ?_, fun t => ?_, ?_⟩
      · unfold entryAdd
        rw [if_neg hk, e1]; rfl
      · simp only [List.map_cons, List.nodup_cons]
        refine ⟨fun h => ?_, e2⟩
        rcases e4 _ h with h | h
        · exact hk h
        · exact hn.1 h
      · simp only [lookup]
        by_cases ht : k = t
        · rw [if_pos ht, if_pos ht, if_neg (fun h => hk (ht.trans h)), add_zero]
        · rw [if_neg ht, if_neg ht, e3 t]
      · intro k' hk'
        rw [List.map_cons, List.mem_cons] at hk' ⊢
        rcases hk' with h | h
        · exact .inr (.inl h)
        · rcases e4 _ h with h | h
          · exact .inl h
          · exact .inr (.inr h)

theorem allZero_iff (m : List (List F × Int)) (hn : (m.map (·.1)).Nodup) :
    (m.all fun e => e.2 = 0) = true ↔ ∀ t, lookup m t = 0 := by
  induction m with
  | nil => simp [lookup]
  | cons e m ih =>
    obtain ⟨k, v⟩ := e
    simp only [List.map_cons, List.nodup_cons] at hn
    rw [List.all_cons, Bool.and_eq_true, ih hn.2]
    simp only [lookup, decide_eq_true_eq]
    constructor
    · rintro ⟨h1, h2⟩ t
      split
      · exact h1
      · exact h2 t
    · intro h
      refine ⟨by simpa using h k, fun t => ?_⟩
      by_cases ht : k = t
      · subst ht
        have : ∀ m : List (List F × Int), k ∉ m.map (·.1) → lookup m k = 0 := by
          intro m
          induction m with
          | nil => intro _; rfl
          | cons e m ih =>
            obtain ⟨k', v'⟩ := e
            intro hh
            simp only [List.map_cons, List.mem_cons, not_or] at hh
            simp only [lookup]
            rw [if_neg (Ne.symm hh.1), ih hh.2]
        exact this m hn.1
      · simpa [ht] using h t

/-! ### Counting -/

/-- The signed count of a tuple. -/
def net (es : List (Event F)) (c : Nat) (t : List F) : Int := (count es .push c t : Int) - count es .pull c t

/-- The sum of all multiplicities. -/
def total (es : List (Event F)) : Nat := (es.map (·.multiplicity)).sum

theorem count_append (a b : List (Event F)) (d : Direction) (c : Nat) (t : List F) :
    count (a ++ b) d c t = count a d c t + count b d c t := by
  simp [count, List.filter_append]

theorem total_append (a b : List (Event F)) : total (a ++ b) = total a + total b := by simp [total]

theorem count_le (es : List (Event F)) (c : Nat) (t : List F) :
    count es .push c t + count es .pull c t ≤ total es := by
  induction es with
  | nil => simp [count, total]
  | cons e es ih =>
    have h1 : ∀ d, count (e :: es) d c t = count [e] d c t + count es d c t := fun d => count_append [e] es d c t
    have h2 : total (e :: es) = e.multiplicity + total es := by simp [total]
    have h3 : count [e] .push c t + count [e] .pull c t ≤ e.multiplicity := by
      obtain ⟨ec, ed, em, et⟩ := e
      cases ed <;> by_cases hc : ec = c <;> by_cases ht : et = t <;> simp [count, hc, ht]
    rw [h1, h1, h2]; omega

theorem net_snoc (es : List (Event F)) (e : Event F) (c : Nat) (t : List F) :
    net (es ++ [e]) c t = net es c t + if e.channel = c ∧ e.tuple = t then e.direction.sign * e.multiplicity else 0 := by
  unfold net
  rw [count_append, count_append]
  obtain ⟨ec, ed, em, et⟩ := e
  cases ed <;> by_cases hc : ec = c <;> by_cases ht : et = t <;>
    simp [count, hc, ht, Direction.sign] <;> omega

/-! ### Sending a list of tuples -/

theorem forEach_append {A S : Type} (f : A → S → Step S) (a b : List A) (s : S) :
    forEach f (a ++ b) s = Step.andThen (forEach f a s) (forEach f b) := by
  induction a generalizing s with
  | nil => rfl
  | cons x a ih =>
    show Step.andThen (f x s) (forEach f (a ++ b)) = Step.andThen (Step.andThen (f x s) (forEach f a)) (forEach f b)
    cases h : f x s with
    | none => rfl
    | some r => cases r with
      | error e => rfl
      | ok s' => exact ih s'

theorem forEach_congr {A S : Type} (f g : A → S → Step S) (l : List A) (h : ∀ a ∈ l, ∀ s, f a s = g a s) (s : S) :
    forEach f l s = forEach g l s := by
  induction l generalizing s with
  | nil => rfl
  | cons x l ih =>
    show Step.andThen (f x s) (forEach f l) = Step.andThen (g x s) (forEach g l)
    rw [h x List.mem_cons_self s]
    congr 1
    funext s'
    exact ih (fun a ha => h a (List.mem_cons_of_mem _ ha)) s'

theorem forEach_flatMap {A B S : Type} (g : B → S → Step S) (k : A → List B) (l : List A) (s : S) :
    forEach (fun a => forEach g (k a)) l s = forEach g (l.flatMap k) s := by
  induction l generalizing s with
  | nil => rfl
  | cons x l ih =>
    rw [List.flatMap_cons, forEach_append]
    show Step.andThen (forEach g (k x) s) _ = _
    congr 1
    funext s'
    exact ih s'

theorem forEach_filterMap {A B S : Type} (f : A → S → Step S) (g : B → S → Step S) (p : A → Bool) (k : A → B)
    (l : List A) (h : ∀ a ∈ l, ∀ s, f a s = if p a then g (k a) s else some (.ok s)) (s : S) :
    forEach f l s = forEach g ((l.filter p).map k) s := by
  induction l generalizing s with
  | nil => rfl
  | cons x l ih =>
    have ih' := ih fun a ha => h a (List.mem_cons_of_mem _ ha)
    show Step.andThen (f x s) (forEach f l) = _
    rw [h x List.mem_cons_self s]
    by_cases hp : p x
    · rw [if_pos hp, List.filter_cons_of_pos hp, List.map_cons]
      show _ = Step.andThen _ _
      congr 1
      funext s'; exact ih' s'
    · rw [if_neg hp, List.filter_cons_of_neg hp]
      exact ih' s

/-- Sending one tuple. -/
def sendEvent (checks : Bool) (cnt : Nat) (e : Event F) (cs : Channels F) : Step (Channels F) :=
  flushChannel checks cnt e.channel e.direction e.multiplicity e.tuple cs

/-- The state after the tuples `pre`. -/
structure Inv (pre : List (Event F)) (cs : Channels F) : Prop where
  unused : ∀ c, (cs c).width = none → ∀ e ∈ pre, e.channel ≠ c
  used : ∀ c w, (cs c).width = some w → (∃ e ∈ pre, e.channel = c) ∧ ∀ e ∈ pre, e.channel = c → e.tuple.length = w
  nodup : ∀ c, ((cs c).multiplicities.map (·.1)).Nodup
  look : ∀ c t, lookup (cs c).multiplicities t = net pre c t

theorem inv_nil : Inv ([] : List (Event F)) fun _ => Channel.new :=
  ⟨fun _ _ e he => by simp at he, fun _ _ h => (by simp [Channel.new] at h), fun _ => (by simp [Channel.new]),
    fun _ _ => (by simp [Channel.new, lookup, net, count])⟩

theorem sendEvent_ok (checks : Bool) (cnt : Nat) (pre : List (Event F)) (e : Event F) (cs : Channels F)
    (hc : e.channel < cnt) (hI : Inv pre cs) (ht : total (pre ++ [e]) < 2 ^ 63) :
    (SameWidth (pre ++ [e]) ∧ ∃ cs', sendEvent checks cnt e cs = some (.ok cs') ∧ Inv (pre ++ [e]) cs') ∨
    (¬ SameWidth (pre ++ [e]) ∧ sendEvent checks cnt e cs = some (.error .channelFlushWidthMismatch)) ∨
    ¬ SameWidth pre := by
  by_cases hsw : SameWidth pre
  swap
  · exact .inr (.inr hsw)
  have hnet : net (pre ++ [e]) e.channel e.tuple = net pre e.channel e.tuple + e.direction.sign * e.multiplicity := by
    rw [net_snoc, if_pos ⟨rfl, rfl⟩]
  have hle := count_le (pre ++ [e]) e.channel e.tuple
  have hmul : e.multiplicity ≤ total (pre ++ [e]) := by rw [total_append]; simp [total]
  have h63 : ((total (pre ++ [e]) : Nat) : Int) < 2 ^ 63 := by exact_mod_cast ht
  have hb1 : -2 ^ 63 ≤ lookup (cs e.channel).multiplicities e.tuple + e.direction.sign * e.multiplicity := by
    rw [hI.look, ← hnet]; unfold net; omega
  have hb2 : lookup (cs e.channel).multiplicities e.tuple + e.direction.sign * e.multiplicity < 2 ^ 63 := by
    rw [hI.look, ← hnet]; unfold net; omega
  have hdelta : i64 checks (wrapI64 e.multiplicity * e.direction.sign) = some (e.direction.sign * e.multiplicity) := by
    rw [wrapI64_of_lt (by omega), mul_comm]
    cases e.direction <;> simp only [Direction.sign] <;> exact i64_ok (by omega) (by omega)
  obtain ⟨m', e1, e2, e3, -⟩ := entryAdd_ok checks e.tuple _ _ hb1 hb2 (hI.nodup e.channel)
  have hmain : ∀ w, (cs e.channel).width = none ∨ (cs e.channel).width = some w → w = e.tuple.length →
      sendEvent checks cnt e cs = some (.ok fun j => if j = e.channel then ⟨some w, m'⟩ else cs j) := by
    intro w hw hl
    unfold sendEvent flushChannel Channel.flush
    rw [if_pos hc]
    rcases hw with hw | hw
    · simp only [hw]
      rw [if_neg (by simp), hdelta, Option.bind_some, e1, hl]
      rfl
    · simp only [hw]
      rw [if_neg (not_not.2 hl), hdelta, Option.bind_some, e1]
      rfl
  have hinv : ∀ w, w = e.tuple.length → (∀ e' ∈ pre, e'.channel = e.channel → e'.tuple.length = w) →
      Inv (pre ++ [e]) fun j => if j = e.channel then ⟨some w, m'⟩ else cs j := by
    intro w hl hall
    refine ⟨fun c h => ?_, fun c w' h => ?_, fun c => ?_, fun c t => ?_⟩
    · by_cases hce : c = e.channel
      · simp [hce] at h
      · simp only [if_neg hce] at h
        intro e' he'
        rcases List.mem_append.1 he' with h' | h'
        · exact hI.unused c h e' h'
        · rw [List.mem_singleton.1 h']; exact Ne.symm hce
    · by_cases hce : c = e.channel
      · simp only [if_pos hce] at h
        obtain rfl : w = w' := by simpa using h
        refine ⟨⟨e, by simp, hce.symm⟩, fun e' he' hc' => ?_⟩
        rcases List.mem_append.1 he' with h' | h'
        · exact hall e' h' (hc'.trans hce)
        · rw [List.mem_singleton.1 h', hl]
      · simp only [if_neg hce] at h
        obtain ⟨⟨e', he', hc'⟩, h2⟩ := hI.used c w' h
        refine ⟨⟨e', by simp [he'], hc'⟩, fun e'' he'' hc'' => ?_⟩
        rcases List.mem_append.1 he'' with h' | h'
        · exact h2 e'' h' hc''
        · rw [List.mem_singleton.1 h'] at hc''; exact absurd hc''.symm hce
    · by_cases hce : c = e.channel
      · simp only [if_pos hce]; exact e2
      · simp only [if_neg hce]; exact hI.nodup c
    · rw [net_snoc]
      by_cases hce : c = e.channel
      · subst hce
        simp only [if_true, true_and]
        rw [e3, hI.look]
        simp only [eq_comm (a := t)]
      · simp only [if_neg hce]
        rw [hI.look, if_neg (fun h => hce h.1.symm), add_zero]
  cases hw : (cs e.channel).width with
  | none =>
    refine .inl ⟨?_, _, hmain e.tuple.length (.inl hw) rfl, hinv _ rfl fun e' he' h => absurd h (hI.unused _ hw e' he')⟩
    intro a ha b hb hab
    rcases List.mem_append.1 ha with ha' | ha' <;> rcases List.mem_append.1 hb with hb' | hb'
    · exact hsw a ha' b hb' hab
    · rw [List.mem_singleton.1 hb'] at hab; exact absurd hab (hI.unused _ hw a ha')
    · rw [List.mem_singleton.1 ha'] at hab; exact absurd hab.symm (hI.unused _ hw b hb')
    · rw [List.mem_singleton.1 ha', List.mem_singleton.1 hb']
  | some w =>
    obtain ⟨⟨e0, he0, hc0⟩, hall⟩ := hI.used _ w hw
    by_cases hl : w = e.tuple.length
    · refine .inl ⟨?_, _, hmain w (.inr hw) hl, hinv w hl hall⟩
      intro a ha b hb hab
      rcases List.mem_append.1 ha with ha' | ha' <;> rcases List.mem_append.1 hb with hb' | hb'
      · exact hsw a ha' b hb' hab
      · rw [List.mem_singleton.1 hb'] at hab ⊢; rw [hall a ha' hab, hl]
      · rw [List.mem_singleton.1 ha'] at hab ⊢; rw [hall b hb' hab.symm, hl]
      · rw [List.mem_singleton.1 ha', List.mem_singleton.1 hb']
    · refine .inr (.inl ⟨fun h => hl ?_, ?_⟩)
      · rw [← hall e0 he0 hc0]
        exact h e0 (by simp [he0]) e (by simp) hc0
      · unfold sendEvent flushChannel Channel.flush
        rw [if_pos hc]
        simp only [hw]
        rw [if_pos hl]; rfl

theorem send_all (checks : Bool) (cnt : Nat) (es : List (Event F)) : ∀ (pre : List (Event F)) (cs : Channels F),
    (∀ e ∈ es, e.channel < cnt) → Inv pre cs → total (pre ++ es) < 2 ^ 63 → SameWidth pre →
    (SameWidth (pre ++ es) → ∃ cs', forEach (sendEvent checks cnt) es cs = some (.ok cs') ∧ Inv (pre ++ es) cs') ∧
    (¬ SameWidth (pre ++ es) → forEach (sendEvent checks cnt) es cs = some (.error .channelFlushWidthMismatch)) := by
  induction es with
  | nil =>
    intro pre cs _ hI _ hsw
    rw [List.append_nil]
    exact ⟨fun _ => ⟨cs, rfl, hI⟩, fun h => absurd hsw h⟩
  | cons e es ih =>
    intro pre cs hc hI ht hsw
    have happ : pre ++ e :: es = (pre ++ [e]) ++ es := by simp
    have ht' : total (pre ++ [e]) < 2 ^ 63 := by rw [happ, total_append] at ht; omega
    rcases sendEvent_ok checks cnt pre e cs (hc e List.mem_cons_self) hI ht' with ⟨h1, cs1, h2, h3⟩ | ⟨h1, h2⟩ | h
    · have := ih (pre ++ [e]) cs1 (fun a ha => hc a (List.mem_cons_of_mem _ ha)) h3 (happ ▸ ht) h1
      rw [happ]
      show (_ → ∃ cs', Step.andThen (sendEvent checks cnt e cs) _ = _ ∧ _) ∧
        (_ → Step.andThen (sendEvent checks cnt e cs) _ = _)
      rw [h2]
      exact this
    · have hn : ¬ SameWidth (pre ++ e :: es) := fun h => h1 fun a ha b hb hab =>
        h a (by rw [happ]; exact List.mem_append_left _ ha) b (by rw [happ]; exact List.mem_append_left _ hb) hab
      refine ⟨fun h => absurd h hn, fun _ => ?_⟩
      show Step.andThen (sendEvent checks cnt e cs) _ = _
      rw [h2]; rfl
    · exact absurd hsw h

/-! ### The rows of a flush -/

variable [Zero F]

theorem collectPolys_ok (witness : Witness F) (ids : List Nat) (ps : List (Poly F)) :
    collectPolys witness ids = .ok ps ↔ List.Forall₂ (fun id p => witness id = some p) ids ps := by
  induction ids generalizing ps with
  | nil =>
    constructor
    · intro h; cases h; exact .nil
    · intro h; cases h; rfl
  | cons id ids ih =>
    unfold collectPolys
    cases hw : witness id with
    | none =>
      simp only
      constructor
      · intro h; cases h
      · intro h; cases h with | cons h _ => rw [hw] at h; cases h
    | some p =>
      simp only
      cases hc : collectPolys witness ids with
      | error e =>
        simp only
        constructor
        · intro h; cases h
        · intro h
          cases h with
          | cons h1 h2 => rw [(ih _).2 h2] at hc; cases hc
      | ok qs =>
        simp only
        constructor
        · intro h; cases h; exact .cons hw ((ih qs).1 hc)
        · intro h
          cases h with
          | cons h1 h2 =>
            rw [hw] at h1; cases h1
            rw [(ih _).2 h2] at hc; cases hc; rfl

theorem mem_oracleIds (l : List (OracleOrConst F)) (id : Nat) : id ∈ oracleIds l ↔ .oracle id ∈ l := by
  unfold oracleIds
  rw [List.mem_filterMap]
  constructor
  · rintro ⟨o, ho, h⟩
    cases o with
    | oracle i => simp only [Option.some.injEq] at h; subst h; exact ho
    | const b => cases h
  · intro h; exact ⟨_, h, rfl⟩

theorem exists_polys (witness : Witness F) (n : Nat) (ids : List Nat)
    (h : ∀ id ∈ ids, ∃ p, witness id = some p ∧ p.nVars = n) :
    ∃ ps, List.Forall₂ (fun id p => witness id = some p) ids ps ∧ ∀ p ∈ ps, p.nVars = n := by
  induction ids with
  | nil => exact ⟨[], .nil, by simp⟩
  | cons id ids ih =>
    obtain ⟨ps, h1, h2⟩ := ih fun i hi => h i (List.mem_cons_of_mem _ hi)
    obtain ⟨p, h3, h4⟩ := h id List.mem_cons_self
    refine ⟨p :: ps, .cons h3 h1, fun q hq => ?_⟩
    rcases List.mem_cons.1 hq with rfl | hq
    · exact h4
    · exact h2 q hq

theorem selectorOff_ok (witness : Witness F) (n i : Nat) (hi : i < 2 ^ n) (ids : List Nat) (ps : List (Poly F))
    (h : List.Forall₂ (fun id p => witness id = some p) ids ps) (hn : ∀ p ∈ ps, p.nVars = n) :
    selectorOff i ps = some !(ids.all fun id => match witness id with
      | some p => decide (p.val i ≠ 0)
      | none => true) := by
  induction h with
  | nil => rfl
  | cons h1 h2 ih =>
    rename_i id p ids ps
    unfold selectorOff Poly.evaluateOnHypercube
    rw [hn p List.mem_cons_self, if_pos hi]
    simp only [List.all_cons, h1]
    by_cases hz : p.val i = 0
    · rw [if_pos hz]; simp [hz]
    · rw [if_neg hz, ih fun q hq => hn q (List.mem_cons_of_mem _ hq)]; simp [hz]

theorem rowValues_ok (witness : Witness F) (n i : Nat) (hi : i < 2 ^ n) (os : List (OracleOrConst F))
    (h : ∀ id, .oracle id ∈ os → ∃ p, witness id = some p ∧ p.nVars = n) :
    rowValues witness i os = some (.ok (os.map (entryAt witness i))) := by
  induction os with
  | nil => rfl
  | cons o os ih =>
    have ih' := ih fun id hid => h id (List.mem_cons_of_mem _ hid)
    cases o with
    | const b =>
      show Step.andThen (rowValues witness i os) _ = _
      rw [ih']; rfl
    | oracle id =>
      obtain ⟨p, h1, h2⟩ := h id List.mem_cons_self
      unfold rowValues
      rw [h1, Option.bind_some]
      unfold Poly.evaluateOnHypercube
      rw [h2, if_pos hi]
      simp only
      rw [ih']
      simp [Step.andThen, entryAt, h1]

theorem flushRows_ok (checks : Bool) (witness : Witness F) (cnt rows : Nat) (f : Flush F)
    (hf : Fits witness rows f) (cs : Channels F) :
    flushRows checks witness cnt rows f cs = forEach (sendEvent checks cnt) (flushEvents witness rows f) cs := by
  obtain ⟨n, h1, h2, h3⟩ := hf
  obtain ⟨ps, p1, p2⟩ := exists_polys witness n (oracleIds f.oracles) fun id hid =>
    h1 id (.inl ((mem_oracleIds _ _).1 hid))
  obtain ⟨ss, s1, s2⟩ := exists_polys witness n f.selectors fun id hid => h1 id (.inr hid)
  have hn : firstNVars ps = n := by
    cases ps with
    | nil =>
      refine (h2 fun id hid => ?_).symm
      have := (mem_oracleIds _ _).2 hid
      cases p1' : oracleIds f.oracles with
      | nil => rw [p1'] at this; cases this
      | cons a l => rw [p1'] at p1; cases p1
    | cons p ps => exact p2 p List.mem_cons_self
  unfold flushRows
  rw [(collectPolys_ok _ _ _).2 p1, (collectPolys_ok _ _ _).2 s1]
  simp only
  rw [hn, if_neg, if_neg, if_neg (by omega)]
  · unfold flushEvents
    refine forEach_filterMap _ _ _ _ _ (fun i hi cs' => ?_) cs
    have hi' : i < 2 ^ n := lt_of_lt_of_le (List.mem_range.1 hi) h3
    unfold rowStep
    rw [selectorOff_ok witness n i hi' _ _ s1 s2, Option.bind_some,
      rowValues_ok witness n i hi' _ fun id hid => h1 id (.inl hid)]
    unfold Selected
    cases (f.selectors.all _) <;> rfl
  · simp only [List.any_eq_true, not_exists, not_and]
    intro p hp; simp [s2 p hp]
  · simp only [List.any_eq_true, not_exists, not_and]
    intro p hp; simp [p2 p hp]

theorem flushRows_fits (checks : Bool) (witness : Witness F) (cnt rows : Nat) (f : Flush F) (cs cs' : Channels F)
    (h : flushRows checks witness cnt rows f cs = some (.ok cs')) : Fits witness rows f := by
  unfold flushRows at h
  cases hp : collectPolys witness (oracleIds f.oracles) with
  | error e => rw [hp] at h; simp at h
  | ok ps =>
    rw [hp] at h
    simp only at h
    cases hs : collectPolys witness f.selectors with
    | error e => rw [hs] at h; simp at h
    | ok ss =>
      rw [hs] at h
      simp only at h
      rw [collectPolys_ok] at hp hs
      generalize hn : firstNVars ps = n at h
      split at h
      · cases h
      rename_i c1
      split at h
      · split at h <;> cases h
      rename_i c2
      split at h
      · cases h
      rename_i c3
      simp only [List.any_eq_true, decide_eq_true_eq, not_exists, not_and, not_not] at c1 c2
      have get : ∀ {ids : List Nat} {qs : List (Poly F)}, List.Forall₂ (fun id p => witness id = some p) ids qs →
          ∀ id ∈ ids, ∃ q ∈ qs, witness id = some q := by
        intro ids qs hq
        induction hq with
        | nil => intro id hid; cases hid
        | cons a b ih =>
          intro id hid
          rcases List.mem_cons.1 hid with rfl | hid
          · exact ⟨_, List.mem_cons_self, a⟩
          · obtain ⟨q, h1, h2⟩ := ih id hid
            exact ⟨q, List.mem_cons_of_mem _ h1, h2⟩
      refine ⟨n, ?_, ?_, by omega⟩
      · rintro id (hid | hid)
        · obtain ⟨q, h1, h2⟩ := get hp id ((mem_oracleIds _ _).2 hid)
          exact ⟨q, h2, c1 q h1⟩
        · obtain ⟨q, h1, h2⟩ := get hs id hid
          exact ⟨q, h2, c2 q h1⟩
      · intro hno
        cases ps with
        | nil => exact hn.symm
        | cons p ps =>
          obtain ⟨id, ids, hid, -, heq⟩ := List.forall₂_cons_right_iff.1 hp
          exact absurd ((mem_oracleIds _ _).1 (heq ▸ List.mem_cons_self : id ∈ oracleIds f.oracles)) (hno id)

theorem mem_flushEvents (witness : Witness F) (rows : Nat) (f : Flush F) (e : Event F)
    (h : e ∈ flushEvents witness rows f) : e.channel = f.channelId := by
  unfold flushEvents at h
  obtain ⟨i, -, rfl⟩ := List.mem_map.1 h
  rfl

theorem flushStep_ok (checks : Bool) (witness : Witness F) (sizes : List Nat) (cnt : Nat) (f : Flush F)
    (hc : f.channelId < cnt ∨ cnt = 0 ∧ f.channelId = 0 ∧ flushEvents witness (sizes.getD f.tableId 0) f = [])
    (ht : f.tableId < sizes.length)
    (hf : sizes.getD f.tableId 0 ≠ 0 → Fits witness (sizes.getD f.tableId 0) f) (cs : Channels F) :
    flushStep checks witness sizes cnt f cs =
      forEach (sendEvent checks cnt) (flushEvents witness (sizes.getD f.tableId 0) f) cs := by
  unfold flushStep
  rw [if_neg (by omega)]
  have e1 : sizes[f.tableId]? = some (sizes.getD f.tableId 0) := by simp [ht]
  rw [e1, Option.bind_some]
  by_cases h0 : sizes.getD f.tableId 0 = 0
  · rw [if_pos h0, h0]
    simp [flushEvents, forEach]
  · rw [if_neg h0, flushRows_ok _ _ _ _ _ (hf h0)]

theorem flushStep_wf (checks : Bool) (witness : Witness F) (sizes : List Nat) (cnt : Nat) (f : Flush F)
    (cs cs' : Channels F) (h : flushStep checks witness sizes cnt f cs = some (.ok cs')) :
    (f.channelId < cnt ∨ cnt = 0 ∧ f.channelId = 0 ∧ flushEvents witness (sizes.getD f.tableId 0) f = []) ∧
    f.tableId < sizes.length ∧ (sizes.getD f.tableId 0 ≠ 0 → Fits witness (sizes.getD f.tableId 0) f) := by
  unfold flushStep at h
  split at h
  · cases h
  rename_i hc
  have ht : f.tableId < sizes.length := by
    by_contra hn
    rw [List.getElem?_eq_none (by omega)] at h
    cases h
  have e1 : sizes[f.tableId]? = some (sizes.getD f.tableId 0) := by simp [ht]
  rw [e1, Option.bind_some] at h
  by_cases h0 : sizes.getD f.tableId 0 = 0
  · refine ⟨?_, ht, fun hh => absurd h0 hh⟩
    by_cases hcnt : cnt = 0
    · exact .inr ⟨hcnt, by omega, by rw [h0]; simp [flushEvents]⟩
    · exact .inl (by omega)
  · rw [if_neg h0] at h
    have hfit := flushRows_fits _ _ _ _ _ _ _ h
    refine ⟨?_, ht, fun _ => hfit⟩
    by_cases hcnt : cnt = 0
    · refine .inr ⟨hcnt, by omega, ?_⟩
      rw [flushRows_ok _ _ _ _ _ hfit] at h
      cases he : flushEvents witness (sizes.getD f.tableId 0) f with
      | nil => rfl
      | cons e es =>
        rw [he] at h
        change Step.andThen (sendEvent checks cnt e cs) _ = _ at h
        unfold sendEvent flushChannel at h
        rw [if_neg (by omega)] at h
        cases h
    · exact .inl (by omega)

theorem forEach_ok_mem {A S : Type} (f : A → S → Step S) (l : List A) (s s' : S)
    (h : forEach f l s = some (.ok s')) : ∀ a ∈ l, ∃ t t', f a t = some (.ok t') := by
  induction l generalizing s with
  | nil => intro a ha; cases ha
  | cons x l ih =>
    change Step.andThen (f x s) (forEach f l) = _ at h
    cases hx : f x s with
    | none => rw [hx] at h; cases h
    | some r => cases r with
      | error e => rw [hx] at h; cases h
      | ok s1 =>
        rw [hx] at h
        intro a ha
        rcases List.mem_cons.1 ha with rfl | ha
        · exact ⟨s, s1, hx⟩
        · exact ih s1 h a ha

theorem checkBalanced_ok (cs : Channels F) (ids : List Nat) :
    checkBalanced cs ids = .ok () ↔ ∀ id ∈ ids, (cs id).isBalanced = true := by
  induction ids with
  | nil => simp [checkBalanced]
  | cons id ids ih =>
    unfold checkBalanced
    by_cases h : (cs id).isBalanced = true
    · rw [if_pos h, ih]; simp [h]
    · rw [if_neg h]; simp [h]

theorem checkBalanced_range (cs : Channels F) (n c : Nat) (hc : c < n) (hb : (cs c).isBalanced = false)
    (hlt : ∀ c' < c, (cs c').isBalanced = true) :
    checkBalanced cs (List.range n) = .error (.channelUnbalanced c) := by
  have key : ∀ a k, checkBalanced cs (List.range' a (c - a + k + 1)) = .error (.channelUnbalanced c) ∨ c < a := by
    intro a k
    by_cases ha : c < a
    · exact .inr ha
    · refine .inl ?_
      generalize hd : c - a = d
      induction d generalizing a with
      | zero =>
        obtain rfl : c = a := by omega
        rw [Nat.zero_add, List.range'_succ]
        unfold checkBalanced
        rw [if_neg (by simp [hb])]
      | succ d ih =>
        rw [show d + 1 + k + 1 = (d + k + 1) + 1 from by omega, List.range'_succ]
        unfold checkBalanced
        rw [if_pos (hlt a (by omega))]
        exact ih (a + 1) (by omega) (by omega)
  rcases key 0 (n - c - 1) with h | h
  · rw [show c - 0 + (n - c - 1) + 1 = n from by omega] at h
    rw [List.range_eq_range']; exact h
  · omega

theorem inv_balanced (es : List (Event F)) (cs : Channels F) (hI : Inv es cs) (c : Nat) :
    (cs c).isBalanced = true ↔ ∀ t, count es .push c t = count es .pull c t := by
  unfold Channel.isBalanced
  rw [allZero_iff _ (hI.nodup c)]
  refine forall_congr' fun t => ?_
  rw [hI.look]; unfold net; omega

end Verif.Channel
