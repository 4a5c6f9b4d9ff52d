import Verif.RingSwitch.LemmasSoundness

/-! Completeness of ring switching. -/

set_option linter.dupNamespace false
set_option linter.unusedSectionVars false

namespace Verif.RingSwitch

open Finset Verif.Mle Verif.Protocol
open Verif.Oracle (OracleSet)
open Verif.Piop (SparseIndex CommitMeta PiopClaim isCommitted)
open Verif.Evalcheck (Claim)

variable {F : Type} [Field F] [DecidableEq F]

/-! ## Packing -/

theorem Coords.Lawful.coord_pack {c : Coords F} {kappa : Nat} (hc : c.Lawful kappa) (x : Nat → F)
    (hx : ∀ i < 2 ^ kappa, InSubfield c (x i)) {w : Nat} (hw : w < 2 ^ kappa) :
    c.coord (∑ i ∈ range (2 ^ kappa), x i * c.basis i) w = x w := by
  rw [hc.coord_sum, sum_eq_single w]
  · obtain ⟨y, j, e⟩ := hx w hw
    rw [e, hc.coord_mul, hc.coord_basis w hw w hw, if_pos rfl, mul_one]
  · intro b hb hne
    obtain ⟨y, j, e⟩ := hx b (mem_range.1 hb)
    rw [e, hc.coord_mul, hc.coord_basis b (mem_range.1 hb) w hw, if_neg hne, mul_zero]
  · intro h
    exact absurd (mem_range.2 hw) h

theorem unpacked_packed {c : Coords F} {kappa : Nat} (hc : c.Lawful kappa) (W : Witness F)
    (hW : ∀ i < 2 ^ W.nVars, InSubfield c (W.value i)) {i : Nat} (hi : i < 2 ^ W.nVars) :
    unpacked c kappa (packedCommitted c kappa W) i = W.value i := by
  unfold unpacked packedCommitted
  have hpos := Nat.two_pow_pos kappa
  by_cases h : W.nVars < kappa
  · rw [if_pos h]
    have hlt : i < 2 ^ kappa := hi.trans (Nat.pow_lt_pow_right (by decide) h)
    rw [Nat.mod_eq_of_lt hlt, hc.coord_pack (fun i => W.value (i % 2 ^ W.nVars))
      (fun j _ => hW _ (Nat.mod_lt _ (Nat.two_pow_pos _))) hlt, Nat.mod_eq_of_lt hi]
  · rw [if_neg h]
    have hn : 2 ^ W.nVars = 2 ^ kappa * 2 ^ (W.nVars - kappa) := by rw [← Nat.pow_add]; congr 1; omega
    have hq : i / 2 ^ kappa < 2 ^ (W.nVars - kappa) := Nat.div_lt_of_lt_mul (by rw [← hn]; exact hi)
    rw [hc.coord_pack (fun j => W.value (i / 2 ^ kappa * 2 ^ kappa + j)) (fun j hj => hW _ (by
      rw [hn]
      calc i / 2 ^ kappa * 2 ^ kappa + j < i / 2 ^ kappa * 2 ^ kappa + 2 ^ kappa := by omega
        _ = 2 ^ kappa * (i / 2 ^ kappa + 1) := by ring
        _ ≤ _ := Nat.mul_le_mul_left _ hq)) (Nat.mod_lt _ hpos), Nat.mul_comm, Nat.div_add_mod]

/-- What the honest prover knows about one claim. -/
def Honest (tw : Tower F) (polys : Nat → Nat → F) (witnesses : List (Witness F))
    (memo : Nat → List F → Option (Witness F)) (it : Item F) : Prop :=
  ∃ (lv : Level) (W : Witness F), lv.kappa = it.kappa ∧ witnesses[it.committed]? = some W ∧
    W.nVars = it.claim.point.length ∧ (∀ i < 2 ^ W.nVars, InSubfield (tw lv) (W.value i)) ∧
    mle W.value it.claim.point = it.claim.eval ∧ polys it.committed = packedCommitted (tw lv) lv.kappa W ∧
    ∀ W', memo it.claim.id it.suf = some W' → W'.nVars = W.nVars - it.suf.length ∧
      ∀ x < 2 ^ W'.nVars, W'.value x = mle (fun t => W.value (t * 2 ^ W'.nVars + x)) it.suf

theorem partialHigh_eq (W : Witness F) (q : List F) (h : q.length ≤ W.nVars) :
    ∃ W', partialHigh W q = .ok W' ∧ W'.nVars = W.nVars - q.length ∧
      ∀ x < 2 ^ W'.nVars, W'.value x = mle (fun t => W.value (t * 2 ^ W'.nVars + x)) q := by
  unfold partialHigh
  rw [expandQuery_eq]
  dsimp only
  rw [if_neg (by omega)]
  refine ⟨_, rfl, rfl, fun x _ => ?_⟩
  dsimp only
  rw [mle_eq_sum]
  refine sum_congr rfl fun t ht => ?_
  rw [List.getElem?_map, List.getElem?_range (mem_range.1 ht)]
  rfl

theorem cycled_length (kappa : Nat) (W : Witness F) : (cycled kappa W).length = 2 ^ kappa := by
  unfold cycled
  dsimp only
  split
  · simp
  · simp; omega

theorem splitPoint_suf_length (kappa : Nat) (p : List F) : (splitPoint kappa p).2.length = p.length - kappa := by
  unfold splitPoint
  split
  · simp; omega
  · simp

/-- The element that the prover makes of a claim. -/
theorem partialEval_ok {tw : Tower F} (hl : tw.Lawful) (polys : Nat → Nat → F) (witnesses : List (Witness F))
    (memo : Nat → List F → Option (Witness F)) (sys : System F) (it : Item F)
    (hd : DescOk sys.prefixes sys.suffixes it) (hh : Honest tw polys witnesses memo it) :
    ∃ t : TElem F, partialEval sys witnesses memo it.desc = .ok t ∧ t.level.kappa = it.kappa ∧
      (∀ w < 2 ^ it.kappa, t.elem w = partialTable (tw t.level) it.suf (polys it.committed) w) ∧
      mle (unpacked (tw t.level) it.kappa (polys it.committed)) it.claim.point = it.claim.eval := by
  obtain ⟨lv, W, hlv, hW, hn, hsub, hev, hpo, hmemo⟩ := hh
  have hc := hl lv
  obtain ⟨W', hW', hn', hv'⟩ := partialHigh_eq W it.suf (by
    unfold Item.suf
    rw [splitPoint_suf_length]
    omega)
  have main : ∀ V : Witness F, V.nVars = W.nVars - it.suf.length →
      (∀ x < 2 ^ V.nVars, V.value x = mle (fun t => W.value (t * 2 ^ V.nVars + x)) it.suf) →
      ∃ t : TElem F, TElem.new it.kappa (cycled it.kappa V) = .ok t ∧ t.level.kappa = it.kappa ∧
        (∀ w < 2 ^ it.kappa, t.elem w = partialTable (tw t.level) it.suf (polys it.committed) w) ∧
        mle (unpacked (tw t.level) it.kappa (polys it.committed)) it.claim.point = it.claim.eval := by
    intro V hVn hVv
    unfold TElem.new
    rw [← hlv, levelOf_kappa]
    refine ⟨_, rfl, rfl, fun w hw => ?_, ?_⟩
    · dsimp only
      rw [if_pos hw, hpo]
      have hsl : it.suf.length = W.nVars - lv.kappa := by
        unfold Item.suf
        rw [splitPoint_suf_length, hn, hlv]
      unfold cycled
      dsimp only
      by_cases hlt : W.nVars < lv.kappa
      · have hsuf : it.suf = [] := List.eq_nil_of_length_eq_zero (by omega)
        have hVn2 : V.nVars = W.nVars := by rw [hVn, hsuf]; simp
        have hp := Nat.pow_lt_pow_right (a := 2) (by decide) hlt
        rw [hVn2, Nat.min_eq_right (Nat.le_of_lt hp), if_pos hp, List.getElem?_map, List.getElem?_range hw]
        simp only [Option.map_some, Option.getD_some]
        rw [hVv _ (by rw [hVn2]; exact Nat.mod_lt _ (Nat.two_pow_pos _)), hsuf]
        unfold partialTable packedCommitted
        rw [if_pos hlt]
        simp only [mle_nil, List.length_nil, Nat.pow_zero, sum_range_one, eqWeight_nil, one_mul, Nat.zero_mul,
          Nat.zero_add]
        rw [hc.coord_pack (fun i => W.value (i % 2 ^ W.nVars)) (fun j _ => hsub _ (Nat.mod_lt _ (Nat.two_pow_pos _))) hw]
      · have hVn2 : V.nVars = lv.kappa := by omega
        rw [hVn2, Nat.min_self, if_neg (by omega), List.getElem?_map, List.getElem?_range hw]
        simp only [Option.map_some, Option.getD_some]
        rw [hVv _ (by rw [hVn2]; exact hw), hVn2, mle_eq_sum]
        unfold partialTable packedCommitted
        rw [if_neg hlt]
        refine sum_congr rfl fun u hu => ?_
        have hu := mem_range.1 hu
        rw [hsl] at hu
        rw [hc.coord_pack (fun j => W.value (u * 2 ^ lv.kappa + j)) (fun j hj => hsub _ ?_) hw]
        have hpw : 2 ^ W.nVars = 2 ^ lv.kappa * 2 ^ (W.nVars - lv.kappa) := by rw [← Nat.pow_add]; congr 1; omega
        rw [hpw]
        calc u * 2 ^ lv.kappa + j < u * 2 ^ lv.kappa + 2 ^ lv.kappa := by omega
          _ = 2 ^ lv.kappa * (u + 1) := by ring
          _ ≤ _ := Nat.mul_le_mul_left _ hu
    · dsimp only
      rw [← hev, hpo]
      exact mle_congr fun i hi => unpacked_packed hc W hsub (by rw [hn]; exact hi)
  unfold partialEval
  rw [show sys.suffixes[it.desc.suffixIdx]? = some ⟨it.suf, it.kappa⟩ from hd.1]
  dsimp only
  rw [show it.desc.claim.id = it.claim.id from rfl]
  cases hm : memo it.claim.id it.suf with
  | some V =>
    obtain ⟨h1, h2⟩ := hmemo V hm
    exact main V h1 h2
  | none =>
    dsimp only
    rw [show witnesses[it.desc.committedIdx]? = some W from hW]
    dsimp only
    rw [hW']
    exact main W' hn' hv'

theorem mapE_ok {A B : Type} (f : A → Except RsError B) (g : A → B) : ∀ l : List A, (∀ a ∈ l, f a = .ok (g a)) →
    mapE f l = .ok (l.map g)
  | [], _ => rfl
  | a :: l, h => by
    rw [mapE, h a List.mem_cons_self]
    dsimp only
    rw [mapE_ok f g l fun b hb => h b (List.mem_cons_of_mem _ hb)]
    rfl

/-- The element at an index. -/
def elemAt (ts : List (TElem F)) (j : Nat) : TElem F := ts[j]?.getD ⟨.b1, fun _ => 0⟩

theorem mixLoop_eq : ∀ (n : Nat) (T : Nat → TElem F) (p : Nat → Nat) (acc : List (TElem F)),
    (∀ i < n, p i < acc.length ∧ (elemAt acc (p i)).level = (T i).level) →
    mixLoop ((List.range n).map T) ((List.range n).map p) acc =
      .ok ((List.range acc.length).map fun j => ⟨(elemAt acc j).level, fun w =>
        (elemAt acc j).elem w + ∑ i ∈ range n, if p i = j then (T i).elem w else 0⟩)
  | 0, T, p, acc, _ => by
    simp only [List.range_zero, List.map_nil, mixLoop, sum_range_zero, add_zero]
    congr 1
    exact list_eq_map_range acc _
  | n + 1, T, p, acc, h => by
    obtain ⟨hlt, hlev⟩ := h 0 (by omega)
    have hget : acc[p 0]? = some (elemAt acc (p 0)) := by
      unfold elemAt
      rw [List.getElem?_eq_getElem hlt]
      rfl
    rw [List.range_succ_eq_map, List.map_cons, List.map_cons, List.map_map, List.map_map, mixLoop, hget]
    dsimp only
    unfold TElem.addAssign
    rw [if_pos hlev]
    dsimp only
    have hset : ∀ j, elemAt (acc.set (p 0) ⟨(elemAt acc (p 0)).level, addElems (elemAt acc (p 0)).elem (T 0).elem⟩) j =
        ⟨(elemAt acc j).level, fun w => (elemAt acc j).elem w + if p 0 = j then (T 0).elem w else 0⟩ := by
      intro j
      unfold elemAt
      rw [List.getElem?_set]
      by_cases hj : p 0 = j
      · subst hj
        simp only [if_true, if_pos hlt, List.getElem?_eq_getElem hlt, Option.getD_some]
        rfl
      · simp only [if_neg hj, add_zero]
    rw [mixLoop_eq n (T ∘ Nat.succ) (p ∘ Nat.succ) _ (fun i hi => by
      rw [List.length_set, hset]
      exact h (i + 1) (by omega)), List.length_set]
    congr 1
    refine List.map_congr_left fun j _ => ?_
    rw [hset]
    congr 1
    funext w
    rw [sum_range_succ']
    show _ + _ + ∑ i ∈ range n, (if p (i + 1) = j then (T (i + 1)).elem w else 0) = _
    ring

variable {os : OracleSet F} {index : SparseIndex Nat} {sys : System F} {items : List (Item F)}

/-- What is known of the elements of the honest prover. -/
structure HonestElems (tw : Tower F) (polys : Nat → Nat → F) (items : List (Item F)) (T : Nat → TElem F) : Prop where
  level : ∀ i < items.length, (T i).level.kappa = (itemAt items i).kappa
  elem : ∀ i < items.length, ∀ w < 2 ^ (itemAt items i).kappa, (T i).elem w =
    partialTable (tw (T i).level) (itemAt items i).suf (polys (itemAt items i).committed) w
  value : ∀ i < items.length, mle (T i).elem (itemAt items i).pre = (itemAt items i).claim.eval

/-- The mixed element for a prefix. -/
def mixedElem (items : List (Item F)) (T : Nat → TElem F) (w : Nat → F) (lev : Nat → Level) (j : Nat) :
    TElem F :=
  ⟨lev j, fun x => ∑ i ∈ range items.length, if (itemAt items i).prefixIdx = j then (T i).elem x * w i else 0⟩

/-- The levels of the prefixes. -/
def LevelsOk (sys : System F) (lev : Nat → Level) : Prop :=
  ∀ (j : Nat) (p : List F), sys.prefixes[j]? = some p → (lev j).kappa = p.length

theorem SysOk.level_eq (hs : SysOk os index sys items) {tw : Tower F} {polys : Nat → Nat → F} {T : Nat → TElem F}
    (hT : HonestElems tw polys items T) {lev : Nat → Level} (hlev : LevelsOk sys lev) {i : Nat} (hi : i < items.length) :
    (T i).level = lev (itemAt items i).prefixIdx :=
  kappa_injective (by rw [hT.level i hi, hlev _ _ (hs.prefix hi), Item.pre_length])

theorem SysOk.levels (hs : SysOk os index sys items) {tw : Tower F} {polys : Nat → Nat → F} {T : Nat → TElem F}
    (hT : HonestElems tw polys items T) : ∃ lev, LevelsOk sys lev := by
  have h : ∀ j : Nat, ∃ l : Level, ∀ p : List F, sys.prefixes[j]? = some p → l.kappa = p.length := by
    intro j
    cases hp : sys.prefixes[j]? with
    | none => exact ⟨.b1, by simp⟩
    | some p =>
      obtain ⟨x, hx, e⟩ := hs.pre p (List.mem_of_getElem? hp)
      obtain ⟨i, hi, e'⟩ := List.mem_iff_getElem.1 hx
      have hxi : itemAt items i = x := by unfold itemAt; rw [List.getElem?_eq_getElem hi]; exact e'
      refine ⟨(T i).level, fun q hq => ?_⟩
      injection hq with hq
      rw [hT.level i hi, hxi, ← hq, e, Item.pre_length]
  choose lev hlev using h
  exact ⟨lev, hlev⟩

/-- What the prover computes before it writes. -/
theorem proveTensors_eq (hs : SysOk os index sys items) {tw : Tower F} {polys : Nat → Nat → F} {T : Nat → TElem F}
    (hT : HonestElems tw polys items T) {lev : Nat → Level} (hlev : LevelsOk sys lev) (witnesses : List (Witness F))
    (memo : Nat → List F → Option (Witness F))
    (hp : ∀ i < items.length, partialEval sys witnesses memo (itemAt items i).desc = .ok (T i))
    (N : Nat) (hN : items.length ≤ N) (w : Nat → F) :
    proveTensors sys witnesses memo ((List.range N).map w) =
      .ok ((List.range items.length).map fun i => (T i).scale (w i),
        (List.range sys.prefixes.length).map (mixedElem items T w lev)) := by
  have h1 : mapE (partialEval sys witnesses memo) sys.claims = .ok ((List.range items.length).map T) := by
    have : ∀ l : List Nat, (∀ i ∈ l, i < items.length) →
        mapE (partialEval sys witnesses memo) (l.map fun i => (itemAt items i).desc) = .ok (l.map T) := by
      intro l
      induction l with
      | nil => intro _; rfl
      | cons i l ih =>
        intro h
        rw [List.map_cons, mapE, hp i (h i List.mem_cons_self)]
        dsimp only
        rw [ih fun k hk => h k (List.mem_cons_of_mem _ hk)]
        rfl
    rw [hs.claims_eq]
    exact this _ fun i hi => List.mem_range.1 hi
  have h2 : List.zipWith (fun (t : TElem F) c => t.scale c) ((List.range items.length).map T) ((List.range N).map w) =
      (List.range items.length).map fun i => (T i).scale (w i) := by
    refine List.ext_getElem (by simp; omega) fun i h1 h2 => by simp
  have h3 : mapE (fun p : List F => TElem.zero p.length) sys.prefixes =
      .ok ((List.range sys.prefixes.length).map fun j => (⟨lev j, fun _ => 0⟩ : TElem F)) := by
    have : ∀ (l : List (List F)) (k : Nat), (∀ i (p : List F), l[i]? = some p → (lev (k + i)).kappa = p.length) →
        mapE (fun p : List F => TElem.zero p.length) l =
          .ok ((List.range l.length).map fun j => (⟨lev (k + j), fun _ => 0⟩ : TElem F)) := by
      intro l
      induction l with
      | nil => intro _ _; rfl
      | cons p l ih =>
        intro k h
        have h0 := h 0 p rfl
        rw [mapE]
        unfold TElem.zero at ih ⊢
        rw [← h0, levelOf_kappa]
        dsimp only
        rw [ih (k + 1) (fun i q hq => by
          have := h (i + 1) q (by simpa using hq)
          rw [← this]
          congr 2
          omega), List.length_cons, List.range_succ_eq_map, List.map_cons, List.map_map]
        dsimp only
        congr 2
        refine List.map_congr_left fun j _ => ?_
        show _ = (⟨lev (k + (j + 1)), fun _ => 0⟩ : TElem F)
        rw [show k + 1 + j = k + (j + 1) by omega]
    have := this sys.prefixes 0 (fun i p hp => by rw [Nat.zero_add]; exact hlev i p hp)
    simpa using this
  unfold proveTensors
  rw [h1]
  dsimp only
  rw [if_neg (by simpa using hN), h2]
  unfold mixTensors
  rw [if_neg (by rw [hs.toPrefix]; simp), h3]
  dsimp only
  rw [hs.toPrefix_eq, mixLoop_eq items.length (fun i => (T i).scale (w i)) (fun i => (itemAt items i).prefixIdx)]
  · dsimp only
    congr 2
    rw [List.length_map, List.length_range]
    refine List.map_congr_left fun j hj => ?_
    have he : elemAt ((List.range sys.prefixes.length).map fun j => (⟨lev j, fun _ => 0⟩ : TElem F)) j =
        ⟨lev j, fun _ => 0⟩ := by
      unfold elemAt
      rw [List.getElem?_map, List.getElem?_range (List.mem_range.1 hj)]
      rfl
    rw [he]
    unfold mixedElem
    congr 1
    funext x
    rw [zero_add]
    rfl
  · intro i hi
    have hlt := hs.prefixIdx_lt hi
    refine ⟨by simpa using hlt, ?_⟩
    unfold elemAt
    rw [List.getElem?_map, List.getElem?_range hlt]
    exact (hs.level_eq hT hlev hi).symm

theorem mixedElem_mle (hs : SysOk os index sys items) {tw : Tower F} {polys : Nat → Nat → F} {T : Nat → TElem F}
    (hT : HonestElems tw polys items T) (lev : Nat → Level) (w : Nat → F) (j : Nat) (p : List F)
    (hp : sys.prefixes[j]? = some p) : mle (mixedElem items T w lev j).elem p =
      ∑ i ∈ range items.length, if (itemAt items i).prefixIdx = j then (itemAt items i).claim.eval * w i else 0 := by
  unfold mixedElem
  dsimp only
  rw [mle_sum]
  refine sum_congr rfl fun i hi => ?_
  have hi := mem_range.1 hi
  by_cases h : (itemAt items i).prefixIdx = j
  · simp only [if_pos h]
    have hpre : (itemAt items i).pre = p := by
      have := hs.prefix hi
      rw [h, hp] at this
      injection this with this
      exact this.symm
    rw [← hT.value i hi, hpre, mul_comm, ← mle_smul]
    exact mle_congr fun x _ => mul_comm _ _
  · simp only [if_neg h]
    exact mle_zero _

theorem agree_bind' {A B B' : Type} {R : A → B → Prop} {R' : A → B' → Prop} {p : PProg F RsError A}
    {v : Prog F RsError B} {l : B → Prog F RsError B'} (h : Agree R p v)
    (hk : ∀ a b, R a b → Agree R' (.ret a) (l b)) : Agree R' p (v.bind l) := by
  induction h with
  | ret h => exact hk _ _ h
  | write hk' _ ih => exact .write hk' ih
  | sample _ ih => exact .sample ih

/-- The elements that the verifier receives. -/
def SameElem (t u : TElem F) : Prop := t.level = u.level ∧ ∀ x < 2 ^ u.level.kappa, t.elem x = u.elem x

theorem write_receive : ∀ (l : List (TElem F × List F)) (es : List F), l.length = es.length →
    (∀ (i : Nat) (t : TElem F) (p : List F) (e : F), l[i]? = some (t, p) → es[i]? = some e → t.level.kappa = p.length ∧ mle t.elem p = e) →
    Agree (fun _ ts => List.Forall₂ SameElem ts (l.map Prod.fst)) (writeTensors l)
      (receiveLoop ((l.map Prod.snd).zip es))
  | [], es, _, _ => by
    rw [List.map_nil, List.map_nil, List.zip_nil_left]
    exact .ret List.Forall₂.nil
  | (t, p) :: l, [], h, _ => by simp at h
  | (t, p) :: l, e :: es, h, hall => by
    obtain ⟨h1, h2⟩ := hall 0 t p e rfl rfl
    rw [List.map_cons, List.map_cons, List.zip_cons_cons, receiveLoop, writeTensors]
    refine .write (by unfold TElem.verticalElems; simp [h1]) ?_
    have hnew : TElem.new p.length t.verticalElems =
        .ok ⟨t.level, fun w => if w < 2 ^ t.level.kappa then t.elem w else 0⟩ := by
      unfold TElem.new TElem.verticalElems
      rw [← h1, levelOf_kappa]
      dsimp only
      congr 2
      funext w
      by_cases hw : w < 2 ^ t.level.kappa
      · rw [if_pos hw, if_pos hw, List.getElem?_map, List.getElem?_range hw]
        rfl
      · rw [if_neg hw, if_neg hw]
    rw [hnew]
    have hev : evalElem (⟨t.level, fun w => if w < 2 ^ t.level.kappa then t.elem w else 0⟩ : TElem F) p = .ok e := by
      refine (evalElem_eq (⟨t.level, fun w => if w < 2 ^ t.level.kappa then t.elem w else 0⟩ : TElem F) p h1).trans ?_
      rw [← h2]
      congr 1
      refine mle_congr fun i hi => ?_
      dsimp only
      rw [if_pos (by rw [h1]; exact hi)]
    show Agree _ _ ((Prog.ofExcept (evalElem _ p)).bind _)
    rw [hev]
    show Agree _ _ (if e ≠ e then _ else _)
    rw [if_neg (by simp)]
    have ih := write_receive l es (by simpa using h) fun i t' p' e' hi he => hall (i + 1) t' p' e' (by simpa using hi)
      (by simpa using he)
    refine agree_bind' ih fun _ ts hts => .ret ?_
    refine List.Forall₂.cons ⟨rfl, fun x hx => ?_⟩ hts
    dsimp only
    rw [if_pos hx]

/-! ## The end -/

theorem makeEqInds_exists (suffixes : List (SuffixDesc F)) (rows : List F) : ∀ l : List (ClaimDesc F × F),
    (∀ p ∈ l, ∃ s, suffixes[p.1.suffixIdx]? = some s ∧ ∃ lv : Level, lv.kappa = s.kappa ∧ 2 ^ lv.kappa ≤ rows.length) →
    ∃ ps, makeEqInds suffixes rows l = .ok ps
  | [], _ => ⟨[], rfl⟩
  | (d, m) :: l, h => by
    obtain ⟨s, hs, lv, hlv, hr⟩ := h (d, m) List.mem_cons_self
    obtain ⟨ps, hps⟩ := makeEqInds_exists suffixes rows l fun p hp => h p (List.mem_cons_of_mem _ hp)
    rw [makeEqInds, hs]
    dsimp only
    unfold makeEqInd EqInd.new
    rw [← hlv, levelOf_kappa]
    dsimp only
    rw [if_neg (by omega)]
    dsimp only
    rw [hps]
    exact ⟨_, rfl⟩

theorem makeClaims_exists (suffixes : List (SuffixDesc F)) : ∀ (l : List (ClaimDesc F × F)) (k : Nat),
    (∀ p ∈ l, ∃ s, suffixes[p.1.suffixIdx]? = some s) → ∃ cs, makeClaims suffixes k l = .ok cs
  | [], _, _ => ⟨[], rfl⟩
  | (d, m) :: l, k, h => by
    obtain ⟨s, hs⟩ := h (d, m) List.mem_cons_self
    obtain ⟨cs, hcs⟩ := makeClaims_exists suffixes l (k + 1) fun p hp => h p (List.mem_cons_of_mem _ hp)
    rw [makeClaims, hs]
    dsimp only
    rw [hcs]
    exact ⟨_, rfl⟩

theorem proveEqInds_ok (h2 : ∀ x : F, x + x = 0) {tw : Tower F} (hl : tw.Lawful) (suffixes : List (SuffixDesc F))
    (rows : List F) : ∀ (l : List (ClaimDesc F × F)) (mems : List (List F)) (ps : List (EqInd F)),
    List.Forall₂ (fun (p : ClaimDesc F × F) (mem : List F) => ∀ s, suffixes[p.1.suffixIdx]? = some s →
      mem.length = 2 ^ s.suffix.length ∧ mem.tail = List.replicate (2 ^ s.suffix.length - 1) 0) l mems →
    makeEqInds suffixes rows l = .ok ps →
    ∃ tables, proveEqInds tw suffixes rows l mems = .ok tables ∧ List.Forall₂ (IsTable tw) tables ps
  | [], _, ps, _, h => by
    injection h with h
    subst h
    exact ⟨[], rfl, List.Forall₂.nil⟩
  | (d, m) :: l, [], ps, hm, _ => by cases hm
  | (d, m) :: l, mem :: mems, ps, hm, h => by
    rw [List.forall₂_cons] at hm
    obtain ⟨hm1, hm2⟩ := hm
    rw [makeEqInds] at h
    rw [proveEqInds]
    cases hsd : suffixes[d.suffixIdx]? with
    | none => rw [hsd] at h; cases h
    | some s =>
      rw [hsd] at h
      dsimp only at h ⊢
      cases hp : makeEqInd s rows m with
      | error e => rw [hp] at h; cases h
      | ok p =>
        rw [hp] at h
        dsimp only at h ⊢
        cases hrest : makeEqInds suffixes rows l with
        | error e => rw [hrest] at h; cases h
        | ok ps' =>
          rw [hrest] at h
          injection h with h
          subst h
          obtain ⟨tables, ht1, ht2⟩ := proveEqInds_ok h2 hl suffixes rows l mems ps' hm2 hrest
          have hpz : p.z = s.suffix ∧ 2 ^ p.level.kappa ≤ p.coeffs.length := by
            unfold makeEqInd at hp
            cases hlv : levelOf s.kappa with
            | error e => rw [hlv] at hp; cases hp
            | ok lv =>
              rw [hlv] at hp
              dsimp only at hp
              unfold EqInd.new at hp
              by_cases hr : rows.length < 2 ^ lv.kappa
              · rw [if_pos hr] at hp; cases hp
              · rw [if_neg hr] at hp
                injection hp with hp
                subst hp
                exact ⟨rfl, by dsimp only; omega⟩
          obtain ⟨hm3, hm4⟩ := hm1 s hsd
          rw [multilinearExtension_eq tw p hpz.2 mem (by rw [hpz.1]; exact hm4) (by rw [hpz.1]; exact hm3)]
          dsimp only
          rw [ht1]
          refine ⟨_, rfl, List.Forall₂.cons ⟨by simp, fun u v huv => ?_⟩ ht2⟩
          obtain ⟨hu, hv⟩ := List.getElem?_eq_some_iff.1 huv
          have hu : u < 2 ^ p.z.length := by simpa using hu
          rw [evaluate_eq h2 hl p hpz.2 _ (vertex_length _ _), mle_vertex _ _ _ hu, ← hv]
          simp

/-- How the results of prover and verifier are related. -/
structure Related (tw : Tower F) (polys : Nat → Nat → F) (a : ReducedWitness F) (b : Reduced F) : Prop where
  claims : a.claims = b.claims
  tables : List.Forall₂ (IsTable tw) a.transparents b.transparents
  sums : ∀ s ∈ b.claims, SumTrue tw polys b.transparents s

theorem fold_same (tw : Tower F) {t u : TElem F} (h : SameElem t u) (rows : List F)
    (hr : 2 ^ u.level.kappa ≤ rows.length) :
    t.fold tw rows = foldFun (tw u.level) u.level.kappa u.elem fun v => rows[v]?.getD 0 := by
  unfold TElem.fold
  rw [foldVertical_eq _ _ _ _ (by rw [h.1]; exact hr), h.1]
  exact foldFun_congr _ _ h.2 _

theorem finish_agree (h2 : ∀ x : F, x + x = 0) {tw : Tower F} (hl : tw.Lawful) (hs : SysOk os index sys items)
    {polys : Nat → Nat → F} {T : Nat → TElem F} (hT : HonestElems tw polys items T) {lev : Nat → Level}
    (hlev : LevelsOk sys lev) (N : Nat) (hN : items.length ≤ N) (w : Nat → F) (rows : List F)
    (hrows : 2 ^ sys.maxKappa ≤ rows.length) (ts : List (TElem F))
    (hts : List.Forall₂ SameElem ts ((List.range sys.prefixes.length).map (mixedElem items T w lev)))
    (mems : List (List F)) (hmem : List.Forall₂ (fun (d : ClaimDesc F) (mem : List F) =>
      ∀ s, sys.suffixes[d.suffixIdx]? = some s →
        mem.length = 2 ^ s.suffix.length ∧ mem.tail = List.replicate (2 ^ s.suffix.length - 1) 0) sys.claims mems) :
    ∃ a b, finishProve tw sys ((List.range N).map w) rows
        ((List.range items.length).map fun i => ((T i).scale (w i)).fold tw rows) mems = .ok a ∧
      finishVerify tw sys ((List.range N).map w) rows ts
        ((List.range items.length).map fun i => ((T i).scale (w i)).fold tw rows) = .ok b ∧ Related tw polys a b := by
  have hkm : ∀ i < items.length, 2 ^ (T i).level.kappa ≤ rows.length := fun i hi =>
    (Nat.pow_le_pow_right (by decide) (by
      rw [hT.level i hi, ← Item.pre_length]
      exact le_maxKappa sys _ (List.mem_of_getElem? (hs.prefix hi)))).trans hrows
  have hy : ∀ i < items.length, ((T i).scale (w i)).fold tw rows = foldFun (tw (T i).level) (T i).level.kappa
      (fun x => (T i).elem x * w i) fun v => rows[v]?.getD 0 := fun i hi => foldVertical_eq _ _ _ _ (hkm i hi)
  obtain ⟨ps, hps⟩ := makeEqInds_exists sys.suffixes rows
    ((List.range items.length).map fun i => ((itemAt items i).desc, w i)) (by
      intro p hp
      obtain ⟨i, hi, rfl⟩ := List.mem_map.1 hp
      have hi := List.mem_range.1 hi
      exact ⟨_, hs.suffix hi, (T i).level, hT.level i hi, hkm i hi⟩)
  obtain ⟨cs, hcs⟩ := makeClaims_exists sys.suffixes
    ((List.range items.length).map fun i => ((itemAt items i).desc, ((T i).scale (w i)).fold tw rows)) 0 (by
      intro p hp
      obtain ⟨i, hi, rfl⟩ := List.mem_map.1 hp
      exact ⟨_, hs.suffix (List.mem_range.1 hi)⟩)
  obtain ⟨tables, ht1, ht2⟩ := proveEqInds_ok h2 hl sys.suffixes rows
    ((List.range items.length).map fun i => ((itemAt items i).desc, w i)) mems ps (by
      rw [hs.claims_eq, List.forall₂_map_left_iff] at hmem
      rw [List.forall₂_map_left_iff]
      exact hmem) hps
  refine ⟨⟨tables, cs⟩, ⟨ps, cs⟩, ?_, ?_, rfl, ht2, ?_⟩
  · unfold finishProve
    rw [hs.zip_eq N hN, hs.zip_eq items.length le_rfl, ht1]
    dsimp only
    rw [hcs]
  · unfold finishVerify
    rw [hs.accumulate_eq, hs.zip_eq N hN, hs.zip_eq items.length le_rfl]
    dsimp only
    rw [if_neg, hps]
    · dsimp only
      rw [hcs]
    · rw [Bool.not_eq_false, checkRows_true]
      intro p hp
      obtain ⟨j, hj, rfl⟩ := List.mem_iff_getElem.1 hp
      have hlen := hts.length_eq
      rw [List.length_map, List.length_range] at hlen
      have hj1 : j < sys.prefixes.length := by simp at hj; omega
      have hsame := (List.forall₂_iff_get.1 hts).2 j (by omega) (by simpa using hj1)
      simp only [List.get_eq_getElem, List.getElem_map, List.getElem_range] at hsame
      simp only [List.getElem_zip, List.getElem_map, List.getElem_range]
      have hjr : 2 ^ (lev j).kappa ≤ rows.length := by
        rw [hlev j _ (List.getElem?_eq_getElem hj1)]
        exact (Nat.pow_le_pow_right (by decide) (le_maxKappa sys _ (List.getElem_mem hj1))).trans hrows
      rw [fold_same tw hsame rows hjr]
      unfold mixedElem
      dsimp only
      rw [(hl (lev j)).foldFun_sum (range items.length) (fun i x => if (itemAt items i).prefixIdx = j then
        (T i).elem x * w i else 0)]
      refine sum_congr rfl fun i hi => ?_
      have hi := mem_range.1 hi
      by_cases hpi : (itemAt items i).prefixIdx = j
      · simp only [if_pos hpi]
        rw [hy i hi, hs.level_eq hT hlev hi, hpi]
      · simp only [if_neg hpi]
        unfold foldFun
        refine sum_eq_zero fun v _ => ?_
        unfold transpose
        rw [sum_eq_zero, zero_mul]
        intro x _
        rw [(hl (lev j)).coord_zero, zero_mul]
  · intro s hsm
    dsimp only at hsm ⊢
    obtain ⟨i, hi, rfl⟩ := List.mem_iff_getElem.1 hsm
    obtain ⟨hcl, hcs'⟩ := makeClaims_ok _ _ _ _ hcs
    obtain ⟨-, hps'⟩ := makeEqInds_ok _ _ _ _ hps
    have hi' : i < items.length := by rw [hcl] at hi; simpa using hi
    have hc := hcs' i (itemAt items i).desc (((T i).scale (w i)).fold tw rows) _ (by simp [hi']) (hs.suffix hi')
    obtain ⟨lv, hlv, hco, hp⟩ := hps' i (itemAt items i).desc (w i) _ (by simp [hi']) (hs.suffix hi')
    rw [List.getElem?_eq_getElem hi, Nat.zero_add] at hc
    injection hc with hc
    rw [hc]
    have hlv' : lv = (T i).level := kappa_injective (by rw [hlv, hT.level i hi'])
    subst hlv'
    refine ⟨_, eqIndTable tw ⟨(T i).level, (itemAt items i).suf, rows, w i⟩, hp, fun u hu => ?_, ?_⟩
    · rw [evaluate_eq h2 hl _ hco _ (vertex_length _ _), mle_vertex _ _ _ hu]
    · dsimp only
      rw [hy i hi']
      rw [foldFun_congr (u := fun x => w i * partialTable (tw (T i).level) (itemAt items i).suf
        (polys (itemAt items i).committed) x) _ _ (fun x hx => by
          rw [hT.elem i hi' x (by rw [← hT.level i hi']; exact hx), mul_comm]), foldFun_partialTable (hl _)]
      rfl

/-- Completeness on the items. -/
theorem prove_agree (h2 : ∀ x : F, x + x = 0) {tw : Tower F} (hl : tw.Lawful) (hs : SysOk os index sys items)
    (polys : Nat → Nat → F) (witnesses : List (Witness F)) (memo : Nat → List F → Option (Witness F))
    (hw : witnesses.length = sys.commitMeta.totalMultilins)
    (hh : ∀ x ∈ items, Honest tw polys witnesses memo x)
    (mems : List (List F)) (hmem : List.Forall₂ (fun (d : ClaimDesc F) (mem : List F) =>
      ∀ s, sys.suffixes[d.suffixIdx]? = some s →
        mem.length = 2 ^ s.suffix.length ∧ mem.tail = List.replicate (2 ^ s.suffix.length - 1) 0) sys.claims mems) :
    Agree (Related tw polys) (prove tw sys witnesses memo mems) (verify tw sys) := by
  have hex : ∀ i, ∃ t : TElem F, i < items.length → partialEval sys witnesses memo (itemAt items i).desc = .ok t ∧
      t.level.kappa = (itemAt items i).kappa ∧
      (∀ x < 2 ^ (itemAt items i).kappa, t.elem x =
        partialTable (tw t.level) (itemAt items i).suf (polys (itemAt items i).committed) x) ∧
      mle (unpacked (tw t.level) (itemAt items i).kappa (polys (itemAt items i).committed)) (itemAt items i).claim.point =
        (itemAt items i).claim.eval := by
    intro i
    by_cases hi : i < items.length
    · obtain ⟨t, ht⟩ := partialEval_ok hl polys witnesses memo sys (itemAt items i)
        (hs.item _ (itemAt_mem items hi)).2.1 (hh _ (itemAt_mem items hi))
      exact ⟨t, fun _ => ht⟩
    · exact ⟨⟨.b1, fun _ => 0⟩, fun h => absurd h hi⟩
  choose T hT0 using hex
  have hT : HonestElems tw polys items T := ⟨fun i hi => (hT0 i hi).2.1, fun i hi => (hT0 i hi).2.2.1, fun i hi => by
    rw [← (hT0 i hi).2.2.2, ← mle_partialTable]
    exact mle_congr fun x hx => (hT0 i hi).2.2.1 x (by rw [← Item.pre_length]; exact hx)⟩
  obtain ⟨lev, hlev⟩ := hs.levels hT
  have hN : items.length ≤ 2 ^ log2Ceil sys.claims.length := by rw [hs.length]; exact le_log2Ceil _
  unfold prove verify
  rw [if_neg (by simpa using hw)]
  refine agree_bind (pSampleVec_agree _) fun r r' hr => ?_
  obtain ⟨rfl, hr⟩ := hr
  rw [expandQuery_eq, hr]
  show Agree _ ((PProg.ofExcept (proveTensors sys witnesses memo _)).bind _) ((receiveTensorElems sys _).bind _)
  rw [proveTensors_eq hs hT hlev witnesses memo (fun i hi => (hT0 i hi).1) _ hN]
  unfold receiveTensorElems
  rw [hs.mixedEvaluations_eq _ hN]
  show Agree _ ((writeTensors _).bind _) ((receiveLoop _).bind _)
  have hwr := write_receive (((List.range sys.prefixes.length).map (mixedElem items T (eqWeight r) lev)).zip sys.prefixes)
    ((List.range sys.prefixes.length).map fun j => ∑ i ∈ range items.length,
      if (itemAt items i).prefixIdx = j then (itemAt items i).claim.eval * eqWeight r i else 0) (by simp)
    (fun j t p e hj he => by
      obtain ⟨hj1, hj2⟩ := List.getElem?_eq_some_iff.1 hj
      obtain ⟨he1, he2⟩ := List.getElem?_eq_some_iff.1 he
      rw [List.getElem_zip] at hj2
      injection hj2 with ht hp
      have hj3 : j < sys.prefixes.length := by simpa using he1
      have hp' : sys.prefixes[j]? = some p := by rw [List.getElem?_eq_getElem hj3, hp]
      rw [List.getElem_map, List.getElem_range] at ht he2
      rw [← ht, ← he2]
      exact ⟨hlev j p hp', mixedElem_mle hs hT lev _ j p hp'⟩)
  rw [List.map_snd_zip (by simp), List.map_fst_zip (by simp)] at hwr
  refine agree_bind hwr fun _ ts hts => ?_
  refine agree_bind (pSampleVec_agree _) fun rho rho' hrho => ?_
  obtain ⟨rfl, hrho⟩ := hrho
  rw [expandQuery_eq, hrho]
  refine .write (by simp [hs.length]) ?_
  obtain ⟨a, b, h1, h3, h4⟩ := finish_agree h2 hl hs hT hlev _ hN (eqWeight r)
    ((List.range (2 ^ sys.maxKappa)).map (eqWeight rho)) (by simp) ts hts mems hmem
  rw [List.map_map]
  show Agree _ (PProg.ofExcept (finishProve tw sys _ _ ((List.range items.length).map fun i =>
    ((T i).scale (eqWeight r i)).fold tw _) mems)) (Prog.ofExcept (finishVerify tw sys _ _ ts
      ((List.range items.length).map fun i => ((T i).scale (eqWeight r i)).fold tw _)))
  rw [h1, h3]
  exact .ret h4

end Verif.RingSwitch
