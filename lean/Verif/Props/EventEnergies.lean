import Verif.Props.EventSteps
/-! # C53: energies -/
set_option autoImplicit false
namespace Verif.VasprunEvent
open Verif Verif.Utils Verif.Xml Verif.Vasprun

/-! ### the getter only looks energies up -/

/-- The same energies of all types. -/
def SameEnergies (a b : Energies) : Prop := ∀ e, a.sc.get? e = b.sc.get? e ∧ a.final.get? e = b.final.get? e

theorem appendStep_same {a b : Energies} (h : SameEnergies a b) (e : EType) (nosc : Bool) (c : EnergyColumn) : appendStep e nosc c a = appendStep e nosc c b := by
  obtain ⟨h1, h2⟩ := h e
  unfold appendStep item
  rw [h1, h2]

theorem fold_same {as bs : List Energies} (h : List.Forall₂ SameEnergies as bs) (e : EType) (nosc : Bool) (i : Nat) (c : EnergyColumn) :
    Res.foldlM' (fun c s => appendStep e nosc c s.2) c (number i as) = Res.foldlM' (fun c s => appendStep e nosc c s.2) c (number i bs) := by
  induction h generalizing i c with
  | nil => rfl
  | cons h1 _ ih =>
    rw [number, number, foldlM'_cons, foldlM'_cons, appendStep_same h1]
    congr 1
    funext c
    exact ih _ c

theorem column_same {as bs : List Energies} (h : List.Forall₂ SameEnergies as bs) (status : Str) (e : EType) (nosc : Bool) :
    energyColumn (number 1 as) status nosc e = energyColumn (number 1 bs) status nosc e := by
  unfold energyColumn
  have get : ∀ k, (item (number 1 as) (1 + k) >>= fun s => appendStep e nosc ⟨[], [], []⟩ s) =
      (item (number 1 bs) (1 + k) >>= fun s => appendStep e nosc ⟨[], [], []⟩ s) := by
    intro k
    unfold item
    rw [number_get, number_get]
    by_cases hk : k < as.length
    · have hk' : k < bs.length := by rw [← h.length_eq]; exact hk
      rw [List.getElem?_eq_getElem hk, List.getElem?_eq_getElem hk']
      have := (List.forall₂_iff_get.1 h).2 k hk hk'
      simp only [List.get_eq_getElem] at this
      exact appendStep_same this e nosc _
    · rw [List.getElem?_eq_none (by omega), List.getElem?_eq_none (by rw [← h.length_eq]; omega)]
  have hmax : maxKey (number 1 as) = maxKey (number 1 bs) := by
    unfold maxKey
    rw [number_keys, number_keys, h.length_eq]
  by_cases h1 : status = c!"initial"
  · rw [if_pos h1, if_pos h1]; exact get 0
  rw [if_neg h1, if_neg h1]
  by_cases h2 : status = c!"last"
  · rw [if_pos h2, if_pos h2, hmax]
    cases bs with
    | nil => rfl
    | cons b bs => rw [maxKey_number, Res.ok_bind, Res.ok_bind]; exact get _
  rw [if_neg h2, if_neg h2]
  by_cases h3 : status = c!"all"
  · rw [if_pos h3, if_pos h3, sortedItems_number, sortedItems_number]
    exact fold_same h e nosc 1 _
  · rw [if_neg h3, if_neg h3]

theorem getEnergies_same {as bs : List Energies} (h : List.Forall₂ SameEnergies as bs) (status : Str) (etype : Option (List Str)) (nosc : Bool) :
    getEnergies (some (number 1 as)) status etype nosc = getEnergies (some (number 1 bs)) status etype nosc := by
  have tab : ∀ es acc st, energyTable (number 1 as) status nosc es acc st = energyTable (number 1 bs) status nosc es acc st := by
    intro es
    induction es with
    | nil => intro acc st; cases st <;> rfl
    | cons e es ih =>
      intro acc st
      rw [energyTable, energyTable, column_same h]
      congr 1
      funext c
      exact ih _ _
  unfold getEnergies
  simp only [tab]

/-! ### what the event driven parser stores -/

theorem number_set_last {α : Type} (i : Nat) (xs : List α) (x y : α) : (number i (xs ++ [x])).set (i + xs.length) y = number i (xs ++ [y]) := by
  induction xs generalizing i with
  | nil => simp [number, Dict.set]
  | cons z zs ih =>
    rw [List.cons_append, List.cons_append, number, number, Dict.set, if_neg (by simp)]
    have : i + (z :: zs).length = (i + 1) + zs.length := by rw [List.length_cons]; omega
    rw [this, ih]

theorem number_get_last {α : Type} (i : Nat) (xs : List α) (x : α) : (number i (xs ++ [x])).get? (i + xs.length) = some x := by
  rw [number_get]; simp

/-- The energies of the ionic step that is read are `m`, those of the steps before are `ens`. -/
def Current (ens : List Energies) (a : Acc) (m : Energies) : Prop := a.o.totens = number 1 (ens ++ [m]) ∧ a.o.num = 1 + ens.length

theorem typeOf_key {v : Str} {e : EType} : typeOf v = some e ↔ v = e.key := by
  unfold typeOf EType.key
  constructor
  · intro h
    split at h
    · injection h with h; subst h; assumption
    split at h
    · injection h with h; subst h; assumption
    split at h
    · injection h with h; subst h; assumption
    · cases h
  · intro h
    cases e
    · rw [if_pos h]
    · rw [if_neg (by rw [h]; decide), if_pos h]
    · rw [if_neg (by rw [h]; decide), if_neg (by rw [h]; decide), if_pos h]

/-- The number in a final energy replaces what was there. -/
def readFinal (_ : Option (Option Rat)) (n : Node) : Res (Option (Option Rat)) :=
  match n.text with
  | none => .raise .typeError
  | some x => Kpoints.toFloat x >>= fun y => .ok (some (some y))

theorem finalItem_current {ens : List Energies} {a a' : Acc} {n : Node} {m : Energies} (h : finalItem a n = .ok a') (hm : Current ens a m) (hn : n.tag = c!"i") :
    ∃ m', Current ens a' m' ∧ ∀ e, Res.foldlM' readFinal (m.final.get? e) (if (tn c!"i" e.key).selects n then [n] else []) = .ok (m'.final.get? e) := by
  unfold finalItem at h
  split at h
  · cases h
  · rename_i v hv
    have hsel : ∀ e : EType, (tn c!"i" e.key).selects n = true ↔ v = e.key := by
      intro e
      rw [selects_tn, hv]
      exact ⟨fun h => by injection h.2, fun h => ⟨hn, by rw [h]⟩⟩
    split at h
    · rename_i ht
      injection h with h; subst h
      refine ⟨m, hm, fun e => ?_⟩
      rw [if_neg]
      · rfl
      · rw [hsel]
        intro hc
        rw [typeOf_key.2 hc] at ht; cases ht
    · rename_i ty ht
      split at h
      · cases h
      · rename_i x hx
        obtain ⟨y, hy, h⟩ := Res.bind_eq_ok.1 h
        rw [hm.1, hm.2, number_get_last] at h
        injection h with h
        subst h
        refine ⟨{ m with final := m.final.set ty (some y) }, ⟨?_, hm.2⟩, fun e => ?_⟩
        · exact number_set_last 1 ens m _
        · by_cases he : e = ty
          · subst he
            rw [if_pos ((hsel e).2 (typeOf_key.1 ht)), foldlM'_cons, readFinal, hx]
            simp only
            rw [hy, Res.ok_bind, Res.ok_bind, Dict.get?_set, if_pos rfl]
            rfl
          · rw [if_neg, Dict.get?_set, if_neg (fun h => he h.symm)]
            · rfl
            · rw [hsel]
              intro hc
              rw [typeOf_key.2 hc] at ht
              injection ht with ht
              exact he ht

theorem finals_current {ens : List Energies} {l : List Node} (hl : ∀ n ∈ l, n.tag = c!"i") {a a' : Acc} {m : Energies} (hm : Current ens a m)
    (h : Res.foldlM' finalItem a l = .ok a') :
    ∃ m', Current ens a' m' ∧ ∀ e, Res.foldlM' readFinal (m.final.get? e) (l.filter (tn c!"i" (EType.key e)).selects) = .ok (m'.final.get? e) := by
  induction l generalizing a m with
  | nil => injection h with h; subst h; exact ⟨m, hm, fun _ => rfl⟩
  | cons n l ih =>
    rw [foldlM'_cons] at h
    obtain ⟨a1, h1, h2⟩ := Res.bind_eq_ok.1 h
    obtain ⟨m1, g1, g2⟩ := finalItem_current h1 hm (hl n (List.mem_cons_self ..))
    obtain ⟨m2, i1, i2⟩ := ih (fun n hn => hl n (List.mem_cons_of_mem _ hn)) g1 h2
    refine ⟨m2, i1, fun e => ?_⟩
    have : (n :: l).filter (tn c!"i" e.key).selects = (if (tn c!"i" e.key).selects n then [n] else []) ++ l.filter (tn c!"i" e.key).selects := by
      rw [List.filter_cons]
      split <;> rfl
    rw [this, foldlM'_append, g2 e, Res.ok_bind, i2 e]

/-- The final energies in a part of an ionic step. -/
def finalIn (e : EType) (n : Node) : List Node := if isEn n then n.children.filter (tn c!"i" e.key).selects else []

/-- The energies of the electronic steps in a part of an ionic step. -/
def scIn (e : EType) (n : Node) : List Node := if isSc n then findRel n [t c!"energy", tn c!"i" e.key] else []

/-- The lists of energies that are collected. -/
def collected (a : Acc) : EType → List Node
  | .extrapolated => a.e0
  | .free => a.efr
  | .noEntropy => a.ewo

theorem part_energy {n : Node} (hp : CalcPart n) (hk : isEn n = true) : EnergyOk n := by
  have ht := of_decide_eq_true hk
  cases hp with
  | struct h => exact absurd (h.1.symm.trans ht) (by decide)
  | forces h => exact absurd (h.symm.trans ht) (by decide)
  | stress h => exact absurd (h.symm.trans ht) (by decide)
  | scstep h => exact absurd (h.1.symm.trans ht) (by decide)
  | energy h => exact h
  | eigenvalues h => exact absurd (h.1.symm.trans ht) (by decide)
  | @special w _ _ _ h => cases w <;> exact absurd (h.tag.symm.trans ht) (by decide)
  | dos h => exact absurd (h.1.symm.trans ht) (by decide)
  | dosS h => exact absurd (h.1.symm.trans ht) (by decide)
  | born h => exact absurd (h.1.symm.trans ht) (by decide)
  | diel h => exact absurd (h.1.symm.trans ht) (by decide)
  | projected h => exact absurd (h.tag.symm.trans ht) (by decide)
  | dynmat h => exact absurd (h.1.symm.trans ht) (by decide)
  | quiet h => exact absurd ht (quiet_not h).ne.2.2.2.2.2.2.2.2.1

theorem calcChild_energies {kb : Bool} {ens : List Energies} {a a' : Acc} {n : Node} {m : Energies} (hp : CalcPart n) (h : calcChild kb a n = .ok a')
    (hm : Current ens a m) :
    ∃ m', Current ens a' m' ∧ (∀ e, Res.foldlM' readFinal (m.final.get? e) (finalIn e n) = .ok (m'.final.get? e)) ∧
      ∀ e, collected a' e = collected a e ++ scIn e n := by
  have hf := calcChild_frame h
  have hsc : ∀ e, collected a' e = collected a e ++ scIn e n := by
    intro e
    unfold scIn
    by_cases hk : isSc n = true
    · rw [calcChild_sc hk] at h
      injection h with h; subst h
      rw [if_pos hk]
      cases e <;> rfl
    · obtain ⟨f1, f2, f3⟩ := hf.sc (by simpa using hk)
      rw [if_neg hk, List.append_nil]
      cases e <;> assumption
  by_cases hk : isEn n = true
  · rw [calcChild_en hk] at h
    obtain ⟨m', g1, g2⟩ := finals_current (fun i hi => ((part_energy hp hk).2 i hi).1) hm h
    refine ⟨m', g1, fun e => ?_, hsc⟩
    unfold finalIn
    rw [if_pos hk]
    exact g2 e
  · refine ⟨m, ⟨(hf.totens (by simpa using hk)).trans hm.1, hf.num.trans hm.2⟩, fun e => ?_, hsc⟩
    unfold finalIn
    rw [if_neg hk]; rfl

theorem parts_energies {kb : Bool} {ens : List Energies} {l : List Node} (hp : ∀ n ∈ l, CalcPart n) {a a' : Acc} {m : Energies}
    (h : Res.foldlM' (calcChild kb) a l = .ok a') (hm : Current ens a m) :
    ∃ m', Current ens a' m' ∧ (∀ e, Res.foldlM' readFinal (m.final.get? e) (l.flatMap (finalIn e)) = .ok (m'.final.get? e)) ∧
      ∀ e, collected a' e = collected a e ++ l.flatMap (scIn e) := by
  induction l generalizing a m with
  | nil => injection h with h; subst h; exact ⟨m, hm, fun _ => rfl, fun e => (List.append_nil _).symm⟩
  | cons n l ih =>
    rw [foldlM'_cons] at h
    obtain ⟨a1, h1, h2⟩ := Res.bind_eq_ok.1 h
    obtain ⟨m1, g1, g2, g3⟩ := calcChild_energies (hp n (List.mem_cons_self ..)) h1 hm
    obtain ⟨m2, i1, i2, i3⟩ := ih (fun n hn => hp n (List.mem_cons_of_mem _ hn)) h2 g1
    refine ⟨m2, i1, fun e => ?_, fun e => ?_⟩
    · rw [List.flatMap_cons, foldlM'_append, g2 e, Res.ok_bind, i2 e]
    · rw [List.flatMap_cons, i3 e, g3 e, List.append_assoc]

theorem filter_en (l : List Node) : l.filter (t c!"energy").selects = l.filter isEn := by
  refine List.filter_congr fun x _ => ?_
  unfold isEn Step.selects t
  simp

theorem filter_sc (l : List Node) : l.filter (t c!"scstep").selects = l.filter isSc := by
  refine List.filter_congr fun x _ => ?_
  unfold isSc Step.selects t
  simp

theorem finalIn_eq (c : Node) (e : EType) : c.children.flatMap (finalIn e) = finalEnergies c e := by
  unfold finalEnergies
  rw [findRel_cons, filter_en, flatMap_filter]
  unfold finalIn
  refine List.flatMap_congr fun n _ => ?_
  rw [findRel_one]

/-- The electronic steps are directly inside the ionic step. -/
def Direct (c : Node) : Prop := (below c).filter (t c!"scstep").selects = c.children.filter (t c!"scstep").selects

theorem scIn_eq {c : Node} (h : Direct c) (e : EType) : c.children.flatMap (scIn e) = scEnergies c e := by
  unfold scEnergies findAny
  rw [h, follow_linear, filter_sc, flatMap_filter]
  rfl

/-- One number of each type behind the electronic steps. -/
def OneFinal (c : Node) : Prop := ∀ e, (finalEnergies c e).length = 1

/-- One ionic step. -/
theorem calcAll_energies {kb : Bool} {ens : List Energies} {o o' : Out} {c : Node} (hp : ∀ n ∈ c.children, CalcPart n) (hd : Direct c) (h1 : OneFinal c)
    (hc : Complete c) (hens : o.totens = number 1 ens) (hn : o.num = 1 + ens.length) (h : calcAll kb o c = .ok o') :
    ∃ en, o'.totens = number 1 (ens ++ [en]) ∧ o'.num = 1 + (ens ++ [en]).length ∧ Rec c en := by
  unfold calcAll at h
  obtain ⟨a, g1, g2⟩ := Res.bind_eq_ok.1 h
  have hs : Current ens (startAcc o) {} := by
    refine ⟨?_, hn⟩
    show o.totens.set o.num {} = _
    rw [hens, hn, number_append_set]
  obtain ⟨m, i1, i2, i3⟩ := parts_energies hp g1 hs
  have hnum := storeAcc_num g2
  unfold storeAcc at g2
  obtain ⟨x, k1, g2⟩ := Res.bind_eq_ok.1 g2
  obtain ⟨y, k2, g2⟩ := Res.bind_eq_ok.1 g2
  obtain ⟨z, k3, g2⟩ := Res.bind_eq_ok.1 g2
  rw [i1.1, i1.2, number_get_last] at g2
  injection g2 with g2
  refine ⟨{ m with sc := ((m.sc.set .extrapolated x).set .free y).set .noEntropy z }, ?_, ?_, ?_⟩
  · rw [← g2]
    exact number_set_last 1 ens m _
  · rw [hnum, i1.2, List.length_append]; rfl
  · intro e
    obtain ⟨w, hw, hce⟩ := hc
    obtain ⟨c1, c2, c3⟩ := hce e
    obtain ⟨xs, hx1, hx2⟩ := convert1D_forall c2
    have hcol : collected a e = scEnergies c e := by
      rw [i3 e, scIn_eq hd]
      cases e <;> rfl
    have hfin := i2 e
    rw [finalIn_eq] at hfin
    rcases at_most_one (Nat.le_of_eq (h1 e)) with h0 | ⟨f, hf⟩
    · have := h1 e; rw [h0] at this; cases this
    rw [hf, foldlM'_cons, readFinal] at hfin
    obtain ⟨r, hr, hfin⟩ := Res.bind_eq_ok.1 hfin
    injection hfin with hfin
    cases htext : f.text with
    | none => rw [htext] at hr; cases hr
    | some tx =>
      rw [htext] at hr
      obtain ⟨yy, hy, hr⟩ := Res.bind_eq_ok.1 hr
      injection hr with hr
      refine ⟨xs, some yy, ?_, ?_, hx2, ?_⟩
      · have inj : ∀ {l : List Node} {u v : List Rat}, convert1D l = .ok u → convert1D l = .ok v → u = v := fun a b => by rw [a] at b; injection b
        cases e with
        | extrapolated =>
          rw [← hcol] at hx1
          rw [inj hx1 k1]
          simp [Dict.get?_set]
        | free =>
          rw [← hcol] at hx1
          rw [inj hx1 k2]
          simp [Dict.get?_set]
        | noEntropy =>
          rw [← hcol] at hx1
          rw [inj hx1 k3]
          simp [Dict.get?_set]
      · rw [← hfin, ← hr]
      · rw [hf]
        unfold FirstNumber
        simp only [htext]
        exact ⟨yy, toFloat_ok hy, rfl⟩

theorem calcs_energies {kb : Bool} {cs : List Node} (hp : ∀ c ∈ cs, (∀ n ∈ c.children, CalcPart n) ∧ Direct c ∧ OneFinal c ∧ Complete c)
    {ens : List Energies} {o o' : Out} (hens : o.totens = number 1 ens) (hn : o.num = 1 + ens.length) (h : Res.foldlM' (calcAll kb) o cs = .ok o') :
    ∃ more, o'.totens = number 1 (ens ++ more) ∧ List.Forall₂ Rec cs more := by
  induction cs generalizing o ens with
  | nil => injection h with h; subst h; exact ⟨[], by rw [List.append_nil, hens], .nil⟩
  | cons c cs ih =>
    rw [foldlM'_cons] at h
    obtain ⟨o1, g1, g2⟩ := Res.bind_eq_ok.1 h
    obtain ⟨p1, p2, p3, p4⟩ := hp c (List.mem_cons_self ..)
    obtain ⟨en, k1, k2, k3⟩ := calcAll_energies p1 p2 p3 p4 hens hn g1
    obtain ⟨more, i1, i2⟩ := ih (fun c hc => hp c (List.mem_cons_of_mem _ hc)) k1 k2 g2
    exact ⟨en :: more, by rw [i1, List.append_assoc]; rfl, .cons k3 i2⟩

theorem firstNumber_unique {es : List Node} {x y : Option Rat} (h : FirstNumber es x) (h' : FirstNumber es y) : x = y := by
  unfold FirstNumber at h h'
  cases es with
  | nil => simp only at h h'; rw [h, h']
  | cons e es =>
    simp only at h h'
    cases ht : e.text with
    | none => rw [ht] at h h'; simp only at h h'; rw [h, h']
    | some s =>
      rw [ht] at h h'
      obtain ⟨a, a1, a2⟩ := h
      obtain ⟨b, b1, b2⟩ := h'
      rw [a1] at b1
      injection b1 with b1
      rw [a2, b2, b1]

theorem rec_same {c : Node} {a b : Energies} (ha : Rec c a) (hb : Rec c b) : SameEnergies a b := by
  intro e
  obtain ⟨x, y, x1, x2, x3, x4⟩ := ha e
  obtain ⟨x', y', x1', x2', x3', x4'⟩ := hb e
  have hx : x = x' := by
    clear x1 x1'
    generalize scEnergies c e = l at x3 x3'
    induction x3 generalizing x' with
    | nil => cases x3'; rfl
    | cons h1 _ ih => cases x3' with
      | cons h2 h3 => have := h1.unique h2; injection this with this; rw [this, ih _ h3]
  rw [x1, x1', x2, x2', hx, firstNumber_unique x4 x4']
  exact ⟨rfl, rfl⟩

theorem recs_same {cs : List Node} {as bs : List Energies} (ha : List.Forall₂ Rec cs as) (hb : List.Forall₂ Rec cs bs) : List.Forall₂ SameEnergies as bs := by
  induction ha generalizing bs with
  | nil => cases hb; exact .nil
  | cons h1 _ ih => cases hb with
    | cons h2 h3 => exact .cons (rec_same h1 h2) (ih h3)

/-- **C53**: energies. In a document whose ionic steps are complete (see C50), with the electronic steps directly inside and one final energy of
each type, `get_energies` is the same, whatever its arguments. Missing: other documents, on which the parsers differ (`C53_violation_*`). -/
theorem C53_energies_partial {kb all : Bool} {root : Node} {head body : List Node} {g q a arr k l w : Node} (h : Doc root head body g q a arr k l w)
    {e : EData} {d : Data} (he : parsee root kb = .ok e) (hd : parsew root kb all = .ok d) (hne : calculations root ≠ [])
    (hc : ∀ c ∈ calculations root, Complete c ∧ OneFinal c ∧ Direct c) (status : Str) (etype : Option (List Str)) (nosc : Bool) :
    getEnergies e.totens status etype nosc = getEnergies d.totens status etype nosc := by
  obtain ⟨o, o', b⟩ := both h he hd
  obtain ⟨ens, t1, t2⟩ := totens_ok (Vasprun.parts hd).totens (fun c h => (hc c h).1) hne
  obtain ⟨ens', u1, u2⟩ := calcs_energies (ens := []) (fun c hc' => ⟨(doc_calcs h c hc').2, (hc c hc').2.2, (hc c hc').2.1, (hc c hc').1⟩)
    (b.init (fun o => o.totens) (fun _ => rfl)) (b.init (fun o => o.num) (fun _ => rfl)) b.run
  rw [List.nil_append] at u1
  have hany : anyEnergy (number 1 ens') = true := by
    generalize calculations root = cs at u2 hne
    cases u2 with
    | nil => exact absurd rfl hne
    | cons r1 r2 =>
      obtain ⟨xs, y, x1, x2, _⟩ := r1 .free
      unfold anyEnergy
      rw [number, List.any_cons, Bool.or_eq_true, Bool.or_eq_true]
      refine .inl (.inl ?_)
      simp only [Bool.not_eq_true', List.isEmpty_eq_false_iff]
      intro hc0
      rw [hc0] at x2
      cases x2
  have e1 : e.totens = some (number 1 ens') := by
    rw [b.finish]
    show (if anyEnergy o'.totens then some o'.totens else none) = _
    rw [u1, if_pos hany]
  rw [e1, t1]
  exact getEnergies_same (recs_same u2 t2) status etype nosc

end Verif.VasprunEvent
