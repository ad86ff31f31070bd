import Verif.Model.EigenvalFull
import Verif.Lemmas.Agree
import Verif.Props.CountsDoscar
import Verif.Props.Eigenval
import Verif.Props.Chgcar
/-! C125 for EIGENVAL: numbers printed as infinite or not a number. -/
set_option autoImplicit false
namespace Verif.EigenvalFull
open Verif Verif.Utils
open Verif.Kpoints (idx toFloat toInt)
open Verif.Doscar (unpack cartesianOf)
open Verif.Eigenval (index size blocks runs pointBlocks Concerns index_ok solid solid_blocks Ints ints_many size_ok)

/-! ### specification -/

/-- The numbers printed by words, infinite ones and NaN included. -/
def Nums (ws : List Str) (xs : List Num) : Prop := List.Forall₂ Shows ws xs

/-- `v` is the number in column `s` behind the band number (or the only number, if there should be several). -/
def InColumn (numSpins : Nat) (line : List Str) (s : Nat) (v : Num) : Prop :=
  ∃ xs, Nums ((line.drop 1).take numSpins) xs ∧ (xs[s]? = some v ∧ xs.length = numSpins ∨ xs = [v] ∧ numSpins ≠ 1)

/-- The value of a band among the band lines of a block: that of the last line with its number, zero without such a line. -/
def BandValue (numSpins numBands : Nat) (lines : List (List Str)) (s b : Nat) (v : Num) : Prop :=
  (∃ pre line post, lines = pre ++ line :: post ∧ Concerns numBands line b ∧ (∀ q ∈ post, ¬ Concerns numBands q b) ∧
    InColumn numSpins line s v) ∨
  ((∀ q ∈ lines, ¬ Concerns numBands q b) ∧ v = .fin 0)

/-- An element of the array of eigenvalues. -/
def at3 (e : Values) (s k b : Nat) : Option Num := (e[s]?.bind fun m => m[k]?).bind fun r => r[b]?

/-! ### arrays -/

theorem nums_iff {ws : List Str} {xs : List Num} : Nums ws xs ↔ Res.mapM' toNum ws = .ok xs := by
  unfold Nums
  rw [Res.mapM'_eq_ok, forall2_toNum]


theorem broadcast_ok {n : Nat} {vs v : List Num} (h : broadcast n vs = .ok v) : v.length = n ∧
    (v = vs ∨ ∃ x, vs = [x] ∧ n ≠ 1 ∧ v = List.replicate n x) := by
  unfold broadcast at h
  split at h
  · rename_i hl; cases h; exact ⟨hl, .inl rfl⟩
  · rename_i hl
    split at h
    · rename_i x; cases h; exact ⟨by simp, .inr ⟨x, rfl, fun hn => hl (by simp [hn]), rfl⟩⟩
    · cases h

/-- All elements are there and no others. -/
structure Shape (ns nk nb : Nat) (e : Values) : Prop where
  len : e.length = ns
  elem : ∀ s k b, (at3 e s k b).isSome = true ↔ s < ns ∧ k < nk ∧ b < nb

theorem at3_assign (e : Values) (k b : Nat) (vs : List Num) (s k' b' : Nat) (hs : e.length = vs.length) :
    at3 (assign e k b vs) s k' b' = if k = k' ∧ b = b' then (at3 e s k' b').bind fun _ => vs[s]? else at3 e s k' b' := by
  unfold at3 assign
  rw [List.getElem?_zipWith]
  by_cases h1 : s < e.length
  · rw [List.getElem?_eq_getElem h1, List.getElem?_eq_getElem (hs ▸ h1 : s < vs.length)]
    simp only [Option.bind_some, List.getElem?_modify]
    by_cases hk : k = k'
    · subst hk
      simp only [if_true, true_and]
      cases hr : e[s][k]? with
      | none => simp
      | some r =>
        simp only [Option.map_eq_map, Option.map_some, Option.bind_some, List.getElem?_set]
        by_cases hbb : b = b'
        · subst hbb
          by_cases hlen : b < r.length <;> simp [hlen]
        · simp [hbb]
    · simp [hk]
  · have : e[s]? = none := List.getElem?_eq_none (by omega)
    simp [this]

theorem Shape.assign {ns nk nb : Nat} {e : Values} (h : Shape ns nk nb e) (k b : Nat) {vs : List Num} (hv : vs.length = ns) :
    Shape ns nk nb (assign e k b vs) := by
  refine ⟨by unfold EigenvalFull.assign; simp [h.len, hv], fun s k' b' => ?_⟩
  rw [at3_assign e k b vs s k' b' (by rw [h.len, hv]), ← h.elem]
  split
  · cases hx : at3 e s k' b' with
    | none => simp
    | some y =>
      have : s < ns := ((h.elem s k' b').1 (by simp [hx])).1
      simp [List.getElem?_eq_getElem (hv.symm ▸ this : s < vs.length)]
  · rfl

theorem Shape.zeros (ns nk nb : Nat) : Shape ns nk nb (List.replicate ns (List.replicate nk (List.replicate nb (.fin 0)))) := by
  refine ⟨by simp, fun s k b => ?_⟩
  unfold at3
  by_cases hs : s < ns
  · by_cases hk : k < nk
    · by_cases hb : b < nb <;> simp [List.getElem?_replicate, hs, hk, hb]
    · simp [List.getElem?_replicate, hs, hk]
  · simp [List.getElem?_replicate, hs]

theorem at3_zeros {ns nk nb s k b : Nat} (h : s < ns ∧ k < nk ∧ b < nb) :
    at3 (List.replicate ns (List.replicate nk (List.replicate nb (.fin 0)))) s k b = some (.fin 0) := by
  unfold at3
  simp [List.getElem?_replicate, h.1, h.2.1, h.2.2]

/-- One band line. -/
theorem readBand_ok {ns nb k nk : Nat} {e e' : Values} {point : List Str} (hs : Shape ns nk nb e)
    (h : readBand ns nb k e point = .ok e') : Shape ns nk nb e' ∧
    (∀ s k' b, k' ≠ k → at3 e' s k' b = at3 e s k' b) ∧
    (∀ s b, s < ns → k < nk → b < nb → Concerns nb point b → ∃ v, at3 e' s k b = some v ∧ InColumn ns point s v) ∧
    (∀ s b, b < nb → ¬ Concerns nb point b → at3 e' s k b = at3 e s k b) := by
  unfold readBand at h
  obtain ⟨w, hw, h⟩ := Res.bind_eq_ok.1 h
  obtain ⟨n, hn, h⟩ := Res.bind_eq_ok.1 h
  obtain ⟨b, hb, h⟩ := Res.bind_eq_ok.1 h
  obtain ⟨vs, hvs, h⟩ := Res.bind_eq_ok.1 h
  obtain ⟨v, hv, h⟩ := Res.bind_eq_ok.1 h
  cases h
  obtain ⟨hvl, hvv⟩ := broadcast_ok hv
  obtain ⟨hbn, hbi⟩ := index_ok hb
  have hhead : point.head? = some w := by rw [List.head?_eq_getElem?]; exact Doscar.idx_ok' hw
  have hint : pyInt w = some n := by
    unfold toInt at hn
    cases hp : pyInt w with
    | none => rw [hp] at hn; cases hn
    | some m => rw [hp] at hn; cases hn; rfl
  have hc : ∀ b', b' < nb → (Concerns nb point b' ↔ b = b') := by
    intro b' hb'
    constructor
    · rintro ⟨w', n', h1, h2, h3⟩
      rw [hhead] at h1; cases h1
      rw [hint] at h2; cases h2
      omega
    · rintro rfl
      exact ⟨w, n, hhead, hint, by omega⟩
  have el : e.length = v.length := by rw [hs.len, hvl]
  refine ⟨hs.assign k b hvl, ?_, ?_, ?_⟩
  · intro s k' b' hk
    rw [at3_assign _ _ _ _ _ _ _ el, if_neg (fun hh => hk hh.1.symm)]
  · intro s b' hsn hkn hbn' hcon
    have hbb := (hc b' hbn').1 hcon
    subst hbb
    rw [at3_assign _ _ _ _ _ _ _ el, if_pos ⟨rfl, rfl⟩]
    obtain ⟨y, hy⟩ := Option.isSome_iff_exists.1 ((hs.elem s k b).2 ⟨hsn, hkn, hbn'⟩)
    rw [hy, Option.bind_some, List.getElem?_eq_getElem (hvl.symm ▸ hsn : s < v.length)]
    refine ⟨_, rfl, vs, nums_iff.2 hvs, ?_⟩
    rcases hvv with rfl | ⟨x, rfl, hne, rfl⟩
    · exact .inl ⟨List.getElem?_eq_getElem _, hvl⟩
    · exact .inr ⟨by simp, hne⟩
  · intro s b' hbn' hcon
    rw [at3_assign _ _ _ _ _ _ _ el, if_neg (fun hh => hcon ((hc b' hbn').2 hh.2))]

/-- The band lines of a block. -/
theorem readBands_ok {ns nb k nk : Nat} (lines : List (List Str)) {e e' : Values} (hs : Shape ns nk nb e)
    (h0 : ∀ s b, s < ns → k < nk → b < nb → at3 e s k b = some (.fin 0))
    (h : Res.foldlM' (readBand ns nb k) e lines = .ok e') : Shape ns nk nb e' ∧
    (∀ s k' b, k' ≠ k → at3 e' s k' b = at3 e s k' b) ∧
    (∀ s b, s < ns → k < nk → b < nb → ∃ v, at3 e' s k b = some v ∧ BandValue ns nb lines s b v) := by
  induction lines using List.reverseRecOn generalizing e' with
  | nil =>
    cases h
    exact ⟨hs, fun _ _ _ _ => rfl, fun s b h1 h2 h3 => ⟨.fin 0, h0 s b h1 h2 h3, .inr ⟨by simp, rfl⟩⟩⟩
  | append_singleton ls line ih =>
    rw [Res.foldlM'_append] at h
    obtain ⟨m, hm, h⟩ := Res.bind_eq_ok.1 h
    obtain ⟨i1, i2, i3⟩ := ih hm
    have hl : readBand ns nb k m line = .ok e' := by
      simp only [Res.foldlM'] at h
      cases hx : readBand ns nb k m line with
      | ok y => rw [hx] at h; exact h
      | exit c => rw [hx] at h; cases h
      | raise x => rw [hx] at h; cases h
    obtain ⟨j1, j2, j3, j4⟩ := readBand_ok i1 hl
    refine ⟨j1, fun s k' b hk => by rw [j2 s k' b hk, i2 s k' b hk], fun s b h1 h2 h3 => ?_⟩
    by_cases hc : Concerns nb line b
    · obtain ⟨v, hv, hin⟩ := j3 s b h1 h2 h3 hc
      exact ⟨v, hv, .inl ⟨ls, line, [], rfl, hc, by simp, hin⟩⟩
    · obtain ⟨v, hv, hbv⟩ := i3 s b h1 h2 h3
      refine ⟨v, by rw [j4 s b h3 hc, hv], ?_⟩
      rcases hbv with ⟨pre, q, post, rfl, hq, hpost, hin⟩ | ⟨hall, hz⟩
      · refine .inl ⟨pre, q, post ++ [line], by simp, hq, ?_, hin⟩
        intro x hx
        rcases List.mem_append.1 hx with hx | hx
        · exact hpost x hx
        · rw [List.mem_singleton] at hx; rw [hx]; exact hc
      · refine .inr ⟨?_, hz⟩
        intro x hx
        rcases List.mem_append.1 hx with hx | hx
        · exact hall x hx
        · rw [List.mem_singleton] at hx; rw [hx]; exact hc

/-- The k-point a line describes: three coordinates and the weight; a single number stands for all four. -/
def PointLine (line : List Str) (kp : List Num) : Prop :=
  Nums line kp ∧ kp.length = 4 ∨ ∃ x, Nums line [x] ∧ kp = [x, x, x, x]

/-- What the arrays say about block `k`. -/
def Placed (ns nb : Nat) (a : Arrays) (k : Nat) (block : List (List Str)) : Prop :=
  ∃ first rest, block = first :: rest ∧ (∃ kp, a.kpoints[k]? = some kp ∧ PointLine first kp) ∧
    ∀ s b, s < ns → b < nb → ∃ v, at3 a.values s k b = some v ∧ BandValue ns nb rest s b v

theorem readBlock_ok {ns nb nk k : Nat} {a a' : Arrays} {block : List (List Str)} (hs : Shape ns nk nb a.values)
    (hk : a.kpoints.length = nk) (h0 : ∀ s b, s < ns → k < nk → b < nb → at3 a.values s k b = some (.fin 0))
    (h : readBlock ns nb a (block, k) = .ok a') : k < nk ∧ Shape ns nk nb a'.values ∧ a'.kpoints.length = nk ∧
    Placed ns nb a' k block ∧ ∀ k', k' ≠ k → a'.kpoints[k']? = a.kpoints[k']? ∧ ∀ s b, at3 a'.values s k' b = at3 a.values s k' b := by
  unfold readBlock at h
  cases block with
  | nil => cases h
  | cons first rest =>
    simp only at h
    obtain ⟨kpi, hkpi, h⟩ := Res.bind_eq_ok.1 h
    split at h
    · rename_i hlt
      obtain ⟨kp, hkp, h⟩ := Res.bind_eq_ok.1 h
      obtain ⟨e, he, h⟩ := Res.bind_eq_ok.1 h
      cases h
      obtain ⟨r1, r2, r3⟩ := readBands_ok rest hs h0 he
      have hknk : k < nk := hk ▸ hlt
      obtain ⟨hkl, hkv⟩ := broadcast_ok hkp
      refine ⟨hknk, r1, by simpa using hk, ⟨first, rest, rfl, ⟨kp, by simp [hlt], ?_⟩, fun s b h1 h2 => r3 s b h1 hknk h2⟩, ?_⟩
      · rcases hkv with rfl | ⟨x, rfl, _, rfl⟩
        · exact .inl ⟨nums_iff.2 hkpi, hkl⟩
        · exact .inr ⟨x, nums_iff.2 hkpi, rfl⟩
      · intro k' hk'
        exact ⟨by simp [List.getElem?_set, Ne.symm hk'], fun s b => r2 s k' b hk'⟩
    · cases h

theorem readBlocks_ok {ns nb nk : Nat} (bs : List (List (List Str))) {a' : Arrays}
    (h : Res.foldlM' (readBlock ns nb) ⟨List.replicate nk [.fin 0, .fin 0, .fin 0, .fin 0], List.replicate ns (List.replicate nk (List.replicate nb (.fin 0)))⟩
      bs.zipIdx = .ok a') : bs.length ≤ nk ∧ Shape ns nk nb a'.values ∧ a'.kpoints.length = nk ∧
    (∀ k block, bs[k]? = some block → Placed ns nb a' k block) ∧
    ∀ k, bs.length ≤ k → k < nk → a'.kpoints[k]? = some [.fin 0, .fin 0, .fin 0, .fin 0] ∧ ∀ s b, s < ns → b < nb → at3 a'.values s k b = some (.fin 0) := by
  induction bs using List.reverseRecOn generalizing a' with
  | nil =>
    cases h
    refine ⟨by simp, Shape.zeros _ _ _, by simp, by simp, fun k _ hk => ⟨by simp [List.getElem?_replicate, hk], fun s b hs hb => at3_zeros ⟨hs, hk, hb⟩⟩⟩
  | append_singleton bs block ih =>
    rw [List.zipIdx_append, Res.foldlM'_append] at h
    obtain ⟨m, hm, h⟩ := Res.bind_eq_ok.1 h
    obtain ⟨i0, i1, i2, i3, i4⟩ := ih hm
    have hl : readBlock ns nb m (block, bs.length) = .ok a' := by
      simp only [List.zipIdx_cons, List.zipIdx_nil, Nat.zero_add, Res.foldlM'] at h
      cases hx : readBlock ns nb m (block, bs.length) with
      | ok y => rw [hx] at h; exact h
      | exit c => rw [hx] at h; cases h
      | raise x => rw [hx] at h; cases h
    obtain ⟨j0, j1, j2, j3, j4⟩ := readBlock_ok i1 i2 (fun s b h1 h2 h3 => (i4 _ le_rfl h2).2 s b h1 h3) hl
    refine ⟨by simp; omega, j1, j2, ?_, ?_⟩
    · intro k blk hk
      by_cases hkl : k < bs.length
      · rw [List.getElem?_append_left hkl] at hk
        obtain ⟨first, rest, hb, ⟨kp, hkp, hpl⟩, hv⟩ := i3 k blk hk
        obtain ⟨q1, q2⟩ := j4 k (by omega)
        exact ⟨first, rest, hb, ⟨kp, by rw [q1, hkp], hpl⟩, fun s b h1 h2 => by rw [q2]; exact hv s b h1 h2⟩
      · rw [List.getElem?_append_right (by omega)] at hk
        have hk0 : k = bs.length := by
          have := (List.getElem?_eq_some_iff.1 hk).1
          simp at this; omega
        subst hk0
        simp at hk
        subst hk
        exact j3
    · intro k hk hkn
      have hk' : bs.length + 1 ≤ k := by simpa using hk
      obtain ⟨q1, q2⟩ := j4 k (by omega)
      obtain ⟨z1, z2⟩ := i4 k (by omega) hkn
      exact ⟨by rw [q1, z1], fun s b h1 h2 => by rw [q2, z2 s b h1 h2]⟩

theorem solid_of_ok {ns nb : Nat} (bs : List (List (List Str))) {k : Nat} {a a' : Arrays}
    (h : Res.foldlM' (readBlock ns nb) a (bs.zipIdx k) = .ok a') : solid bs = bs := by
  induction bs generalizing k a with
  | nil => rfl
  | cons b bs ih =>
    simp only [List.zipIdx_cons, Res.foldlM'] at h
    cases hx : readBlock ns nb a (b, k) with
    | ok y =>
      rw [hx] at h
      have : b ≠ [] := by rintro rfl; simp [readBlock] at hx
      have ih' := ih h
      unfold solid at ih' ⊢
      rw [List.filter_cons_of_pos (by simp [this]), ih']
    | exit c => rw [hx] at h; cases h
    | raise x => rw [hx] at h; cases h

/-- What an accepted file looks like. -/
theorem fromList_ok {lines : List Str} {d : Data} (h : fromList lines = .ok d) : ∃ (l0 l1 l2 l3 l4 l5 : Str) (ni na p sn : Int) (nk ns nb : Nat)
    (coord : OneOrMany Str),
    lines[0]? = some l0 ∧ lines[1]? = some l1 ∧ lines[2]? = some l2 ∧ lines[3]? = some l3 ∧ lines[4]? = some l4 ∧ lines[5]? = some l5 ∧
    Ints l0 [ni, na, p, ns] ∧ Ints l5 [sn, nk, nb] ∧
    lineToType toNum l1 = .ok d.metadata.line1 ∧ lineToType toNum l2 = .ok d.metadata.line2 ∧
    lineToType Res.ok l3 = .ok coord ∧ cartesianOf coord = .ok d.metadata.cartesian ∧
    d.metadata.line0 = [ni, na, p, ns] ∧ d.metadata.nIons = ni ∧ d.metadata.nAtoms = na ∧ d.metadata.p00 = p ∧ d.metadata.nspin = ns ∧
    d.metadata.someNum = sn ∧ d.metadata.nKp = nk ∧ d.metadata.nBands = nb ∧ d.metadata.name = strip l4 ∧
    Res.foldlM' (readBlock ns nb) ⟨List.replicate nk [.fin 0, .fin 0, .fin 0, .fin 0], List.replicate ns (List.replicate nk (List.replicate nb (.fin 0)))⟩
      (blocks (lines.drop 6).flatten).zipIdx = .ok d.arrays := by
  unfold fromList at h
  obtain ⟨l0, e0, h⟩ := Res.bind_eq_ok.1 h
  obtain ⟨v0, f0, h⟩ := Res.bind_eq_ok.1 h
  obtain ⟨l1, e1, h⟩ := Res.bind_eq_ok.1 h
  obtain ⟨v1, f1, h⟩ := Res.bind_eq_ok.1 h
  obtain ⟨l2, e2, h⟩ := Res.bind_eq_ok.1 h
  obtain ⟨v2, f2, h⟩ := Res.bind_eq_ok.1 h
  obtain ⟨l3, e3, h⟩ := Res.bind_eq_ok.1 h
  obtain ⟨coord, f3, h⟩ := Res.bind_eq_ok.1 h
  obtain ⟨l4, e4, h⟩ := Res.bind_eq_ok.1 h
  obtain ⟨l5, e5, h⟩ := Res.bind_eq_ok.1 h
  obtain ⟨v5, f5, h⟩ := Res.bind_eq_ok.1 h
  obtain ⟨h5, g5, h⟩ := Res.bind_eq_ok.1 h
  obtain ⟨h0, g0, h⟩ := Res.bind_eq_ok.1 h
  rw [(Doscar.unpack_ok g0).1] at f0
  rw [(Doscar.unpack_ok g5).1] at f5
  have k0 := (Doscar.unpack_ok g0).2
  have k5 := (Doscar.unpack_ok g5).2
  match h0, k0, h5, k5, f0, f5, h with
  | [ni, na, p, nsp], _, [sn, nkp, nbd], _, f0, f5, h =>
    simp only at h
    obtain ⟨nk, hnk, h⟩ := Res.bind_eq_ok.1 h
    obtain ⟨ns, hns, h⟩ := Res.bind_eq_ok.1 h
    obtain ⟨nb, hnb, h⟩ := Res.bind_eq_ok.1 h
    obtain ⟨a, ha, h⟩ := Res.bind_eq_ok.1 h
    obtain ⟨cart, hcart, h⟩ := Res.bind_eq_ok.1 h
    cases h
    have q1 := size_ok hnk
    have q2 := size_ok hns
    have q3 := size_ok hnb
    refine ⟨l0, l1, l2, l3, l4, l5, ni, na, p, sn, nk, ns, nb, coord, Doscar.idx_ok' e0, Doscar.idx_ok' e1, Doscar.idx_ok' e2,
      Doscar.idx_ok' e3, Doscar.idx_ok' e4, Doscar.idx_ok' e5, q2 ▸ ints_many f0, q1 ▸ q3 ▸ ints_many f5, f1, f2, f3, hcart, ?_, rfl, rfl, rfl,
      q2, rfl, q1, q3, rfl, ha⟩
    simp only [q2]

/-! ### both models agree -/

/-- The arrays of the other model. -/
def liftArrays (a : Eigenval.Arrays) : Arrays := ⟨a.kpoints.map (List.map .fin), a.values.map (List.map (List.map .fin))⟩

/-- The data of the other model. -/
def lift (d : Eigenval.Data) : Data :=
  let m := d.metadata
  ⟨⟨m.line0, m.line1.map .fin, m.line2.map .fin, m.nIons, m.nAtoms, m.p00, m.nspin, m.cartesian, m.name, m.someNum, m.nBands, m.nKp⟩, liftArrays d.arrays⟩

theorem broadcast_agree (n : Nat) (vs : List Rat) : Agree (List.map Num.fin) (Eigenval.broadcast n vs) (broadcast n (vs.map .fin)) := by
  unfold Eigenval.broadcast broadcast
  by_cases h : vs.length = n
  · rw [if_pos h, if_pos (by simpa using h)]; exact rfl
  · rw [if_neg h, if_neg (by simpa using h)]
    match vs with
    | [] => exact .inr rfl
    | [v] => show _ = _; simp
    | _ :: _ :: _ => exact .inr rfl

theorem assign_agree (e : Eigenval.Values) (k b : Nat) (vs : List Rat) :
    assign (e.map (List.map (List.map Num.fin))) k b (vs.map .fin) = (Eigenval.assign e k b vs).map (List.map (List.map .fin)) := by
  unfold assign Eigenval.assign
  rw [List.map_zipWith, List.zipWith_map]
  congr 1
  funext m v
  apply List.ext_getElem?
  intro i
  simp only [List.getElem?_modify, List.getElem?_map]
  by_cases hk : k = i
  · subst hk
    cases m[k]? <;> simp [List.map_set]
  · simp [hk]

theorem readBand_agree (ns nb k : Nat) (e : Eigenval.Values) (point : List Str) : Agree (List.map (List.map (List.map Num.fin)))
    (Eigenval.readBand ns nb k e point) (readBand ns nb k (e.map (List.map (List.map .fin))) point) := by
  unfold Eigenval.readBand readBand
  refine Agree.same fun w _ => Agree.same fun n _ => Agree.same fun b _ => Agree.bind (Agree.mapM' toNum_agree _) fun vs _ => Agree.bind (broadcast_agree _ _) fun v _ => ?_
  rw [assign_agree]
  exact rfl

theorem readBlock_agree (ns nb : Nat) (a : Eigenval.Arrays) (p : List (List Str) × Nat) : Agree liftArrays (Eigenval.readBlock ns nb a p)
    (readBlock ns nb (liftArrays a) p) := by
  unfold Eigenval.readBlock readBlock
  match p.1 with
  | [] => exact .inr rfl
  | first :: rest =>
    refine Agree.bind (Agree.mapM' toNum_agree _) fun kpi _ => ?_
    have hl : (liftArrays a).kpoints.length = a.kpoints.length := by simp [liftArrays]
    rw [hl]
    split
    · refine Agree.bind (broadcast_agree _ _) fun kp _ => Agree.bind (f := List.map (List.map (List.map Num.fin))) (Agree.foldlM' (readBand_agree ns nb p.2) rest a.values) fun e _ => ?_
      show _ = _
      simp [liftArrays, List.map_set]
    · exact .inr rfl

/-- Where the first model of eigenval.py describes the outcome, this one gives the same. -/
theorem fromList_agree (lines : List Str) : Agree lift (Eigenval.fromList lines) (fromList lines) := by
  unfold Eigenval.fromList fromList
  refine Agree.same fun l0 _ => Agree.same fun v0 _ => Agree.same fun l1 _ => Agree.bind (lineToType_agree toNum_agree _) fun v1 _ => Agree.same fun l2 _ =>
    Agree.bind (lineToType_agree toNum_agree _) fun v2 _ => Agree.same fun l3 _ => Agree.same fun coord _ => Agree.same fun l4 _ => Agree.same fun l5 _ =>
    Agree.same fun v5 _ => Agree.same fun h5 g5 => Agree.same fun h0 g0 => ?_
  have k0 := (Doscar.unpack_ok g0).2
  have k5 := (Doscar.unpack_ok g5).2
  clear g0 g5
  match h0, k0, h5, k5 with
  | [ni, na, p, nsp], _, [sn, nkp, nbd], _ =>
    refine Agree.same fun nk _ => Agree.same fun ns _ => Agree.same fun nb _ => ?_
    have := Agree.foldlM' (readBlock_agree ns nb) (blocks (lines.drop 6).flatten).zipIdx
      ⟨List.replicate nk [0, 0, 0, 0], List.replicate ns (List.replicate nk (List.replicate nb 0))⟩
    have e : liftArrays ⟨List.replicate nk [0, 0, 0, 0], List.replicate ns (List.replicate nk (List.replicate nb 0))⟩ =
        ⟨List.replicate nk [.fin 0, .fin 0, .fin 0, .fin 0], List.replicate ns (List.replicate nk (List.replicate nb (.fin 0)))⟩ := by
      simp [liftArrays]
    rw [e] at this
    exact Agree.bind this fun a _ => Agree.same fun cart _ => rfl

theorem init_agree (path : Option (Option Str)) (handler : Option Str) : Agree lift (Eigenval.init path handler) (init path handler) := by
  unfold Eigenval.init init
  split
  · exact fromList_agree _
  · split
    · exact fromList_agree _
    · exact rfl
    · exact rfl

/-! ### C125 -/

/-- C125 for EIGENVAL: in an accepted file the k-point and all eigenvalues of every block are those printed at their places, whichever of them are infinite
or not a number; places without block hold zero. -/
theorem C125_eigenval (text : Str) (d : Data) (hb : ∀ c ∈ text, isLineBreak c = true → c = '\n')
    (h : init none (some text) = .ok d) : ∃ (ns nk nb : Nat) (ni na p sn : Int) (l0 l5 : Str),
    (readlines text)[0]? = some l0 ∧ Ints l0 [ni, na, p, ns] ∧ (readlines text)[5]? = some l5 ∧ Ints l5 [sn, nk, nb] ∧
    (pointBlocks text).length ≤ nk ∧ d.arrays.kpoints.length = nk ∧
    (∀ s k b, (at3 d.arrays.values s k b).isSome = true ↔ s < ns ∧ k < nk ∧ b < nb) ∧
    (∀ k block, (pointBlocks text)[k]? = some block → ∃ first rest, block = first :: rest ∧
      (∃ kp, d.arrays.kpoints[k]? = some kp ∧ PointLine first kp) ∧
      ∀ s b, s < ns → b < nb → ∃ v, at3 d.arrays.values s k b = some v ∧ BandValue ns nb rest s b v) ∧
    ∀ k, (pointBlocks text).length ≤ k → k < nk → d.arrays.kpoints[k]? = some [.fin 0, .fin 0, .fin 0, .fin 0] ∧
      ∀ s b, s < ns → b < nb → at3 d.arrays.values s k b = some (.fin 0) := by
  obtain ⟨l0, l1, l2, l3, l4, l5, ni, na, p, sn, nk, ns, nb, coord, e0, _, _, _, _, e5, i0, i5, _, _, _, _, _, _, _, _, _, _, _, _, _, hf⟩ :=
    fromList_ok h
  have hs := solid_of_ok _ hf
  rw [solid_blocks text hb] at hs
  rw [← hs] at hf
  obtain ⟨r1, r2, r3, r4, r5⟩ := readBlocks_ok _ hf
  exact ⟨ns, nk, nb, ni, na, p, sn, l0, l5, e0, i0, e5, i5, r1, r3, r2.elem, r4, r5⟩

/-- C125 for EIGENVAL, header: the second and third line are returned with the numbers printed there (a single number as such), special ones included. -/
theorem C125_eigenval_header (text : Str) (d : Data) (h : init none (some text) = .ok d) : ∃ (l1 l2 : Str) (x1 x2 : List Num),
    (readlines text)[1]? = some l1 ∧ (readlines text)[2]? = some l2 ∧ Nums (words l1) x1 ∧ Nums (words l2) x2 ∧
    (d.metadata.line1 = .many x1 ∧ x1.length ≠ 1 ∨ ∃ x, x1 = [x] ∧ d.metadata.line1 = .one x) ∧
    (d.metadata.line2 = .many x2 ∧ x2.length ≠ 1 ∨ ∃ x, x2 = [x] ∧ d.metadata.line2 = .one x) := by
  obtain ⟨l0, l1, l2, l3, l4, l5, ni, na, p, sn, nk, ns, nb, coord, _, e1, e2, _, _, _, _, _, f1, f2, _⟩ := fromList_ok h
  have key : ∀ (l : Str) (v : OneOrMany Num), lineToType toNum l = .ok v → ∃ xs, Nums (words l) xs ∧
      (v = .many xs ∧ xs.length ≠ 1 ∨ ∃ x, xs = [x] ∧ v = .one x) := by
    intro l v hv
    unfold lineToType at hv
    match hm : Res.mapM' toNum (words l), hv with
    | .ok [], hv => cases hv; exact ⟨[], nums_iff.2 hm, .inl ⟨rfl, by simp⟩⟩
    | .ok [x], hv => cases hv; exact ⟨[x], nums_iff.2 hm, .inr ⟨x, rfl, rfl⟩⟩
    | .ok (x :: y :: r), hv => cases hv; exact ⟨_, nums_iff.2 hm, .inl ⟨rfl, by simp⟩⟩
  obtain ⟨x1, n1, w1⟩ := key _ _ f1
  obtain ⟨x2, n2, w2⟩ := key _ _ f2
  exact ⟨l1, l2, x1, x2, e1, e2, n1, n2, w1, w2⟩

/-- Specification: a block of a k-point: four numbers, then lines with the number of a band and as many numbers as there are spins. -/
def IsBlock (ns nb : Nat) (block : List (List Str)) : Prop :=
  ∃ first rest, block = first :: rest ∧ (∃ kp, Nums first kp ∧ kp.length = 4) ∧
    ∀ line ∈ rest, ∃ (w : Str) (ws : List Str) (n : Int) (xs : List Num), line = w :: ws ∧ pyInt w = some n ∧ 1 ≤ n ∧ n ≤ nb ∧ Nums (ws.take ns) xs ∧ xs.length = ns

/-- Specification: an EIGENVAL as VASP writes it, but for special numbers. -/
structure File (text : Str) (ns nk nb : Nat) : Prop where
  breaks : ∀ c ∈ text, isLineBreak c = true → c = '\n'
  first : ∀ a b r, (readlines text).drop 6 = a :: b :: r → words a ≠ [] ∨ words b ≠ []
  last : ∃ l, ((readlines text).drop 6).getLast? = some l ∧ words l ≠ []
  header : ∃ (l0 l1 l2 l3 l4 l5 : Str) (ni na p sn : Int) (x1 x2 : List Num) (w : Str), (readlines text).take 6 = [l0, l1, l2, l3, l4, l5] ∧
    Ints l0 [ni, na, p, ns] ∧ Nums (words l1) x1 ∧ Nums (words l2) x2 ∧ words l3 = [w] ∧ Ints l5 [sn, nk, nb]
  count : (pointBlocks text).length ≤ nk
  block : ∀ b ∈ pointBlocks text, IsBlock ns nb b

theorem readBand_accepts {ns nb nk k : Nat} (hk : k < nk) {e : Values} {w : Str} {ws : List Str} {n : Int} {xs : List Num} (hn : pyInt w = some n) (h1 : 1 ≤ n)
    (h2 : n ≤ nb) (hx : Nums (ws.take ns) xs) (hl : xs.length = ns) : ∃ e', readBand ns nb k e (w :: ws) = .ok e' := by
  refine ⟨assign e k (n - 1).toNat xs, ?_⟩
  unfold readBand
  have i0 : idx (w :: ws) 0 = .ok w := rfl
  have i1 : toInt w = .ok n := by unfold toInt; rw [hn]
  have i2 : index nb (n - 1) = .ok (n - 1).toNat := by unfold index; rw [if_pos (by omega)]
  rw [i0, Res.ok_bind, i1, Res.ok_bind, i2, Res.ok_bind, List.drop_succ_cons, List.drop_zero, nums_iff.1 hx, Res.ok_bind]
  unfold broadcast
  rw [if_pos hl, Res.ok_bind]

theorem readBands_accepts {ns nb nk k : Nat} (hk : k < nk) : ∀ (lines : List (List Str)) (e : Values), (∀ line ∈ lines, ∃ (w : Str) (ws : List Str) (n : Int)
    (xs : List Num), line = w :: ws ∧ pyInt w = some n ∧ 1 ≤ n ∧ n ≤ nb ∧ Nums (ws.take ns) xs ∧ xs.length = ns) →
    ∃ e', Res.foldlM' (readBand ns nb k) e lines = .ok e'
  | [], e, _ => ⟨e, rfl⟩
  | l :: ls, e, h => by
    obtain ⟨w, ws, n, xs, rfl, hn, h1, h2, hx, hl⟩ := h l (by simp)
    obtain ⟨e1, he⟩ := readBand_accepts hk (e := e) hn h1 h2 hx hl
    obtain ⟨e2, he2⟩ := readBands_accepts hk ls e1 fun x hx => h x (by simp [hx])
    exact ⟨e2, by simp only [Res.foldlM', he, he2]⟩

theorem readBlocks_accepts {ns nb nk : Nat} : ∀ (bs : List (List (List Str))) (k : Nat) (a : Arrays), a.kpoints.length = nk → k + bs.length ≤ nk →
    (∀ b ∈ bs, IsBlock ns nb b) → ∃ a', Res.foldlM' (readBlock ns nb) a (bs.zipIdx k) = .ok a'
  | [], _, a, _, _, _ => ⟨a, rfl⟩
  | b :: bs, k, a, ha, hk, h => by
    rw [List.length_cons] at hk
    obtain ⟨first, rest, rfl, ⟨kp, hkp, hkl⟩, hr⟩ := h b (by simp)
    obtain ⟨e, he⟩ := readBands_accepts (nk := nk) (k := k) (by omega) rest a.values hr
    have hb : readBlock ns nb a (first :: rest, k) = .ok ⟨a.kpoints.set k kp, e⟩ := by
      unfold readBlock
      simp only
      rw [nums_iff.1 hkp, Res.ok_bind, if_pos (by omega)]
      unfold broadcast
      rw [if_pos hkl, Res.ok_bind, he, Res.ok_bind]
    obtain ⟨a', ha'⟩ := readBlocks_accepts bs (k + 1) ⟨a.kpoints.set k kp, e⟩ (by simpa using ha) (by omega) fun x hx => h x (by simp [hx])
    exact ⟨a', by simp only [List.zipIdx_cons, Res.foldlM', hb, ha']⟩

/-- C125 for EIGENVAL: a file in the format of VASP is accepted, whichever of its numbers are infinite or not a number. -/
theorem C125_eigenval_accepted (text : Str) (ns nk nb : Nat) (h : File text ns nk nb) : ∃ d, init none (some text) = .ok d := by
  obtain ⟨l0, l1, l2, l3, l4, l5, ni, na, p, sn, x1, x2, w, ht, hl0, hx1, hx2, hl3, hl5⟩ := h.header
  have hi : ∀ (j : Nat) (l : Str), [l0, l1, l2, l3, l4, l5][j]? = some l → idx (readlines text) j = .ok l := by
    intro j l hj
    have hj6 := (List.getElem?_eq_some_iff.1 hj).1
    rw [← ht, List.getElem?_take, if_pos (by simpa using hj6)] at hj
    unfold idx; rw [hj]
  have ints : ∀ (l : Str) (xs : List Int), Ints l xs → 2 ≤ xs.length → lineToType toInt l = .ok (.many xs) := by
    intro l xs hx h2
    have : Res.mapM' toInt (words l) = .ok xs := by
      rw [Res.mapM'_eq_ok]
      refine List.Forall₂.imp (fun w x hx => ?_) hx
      unfold toInt; rw [hx]
    unfold lineToType
    rw [this]
    match xs, h2 with
    | _ :: _ :: _, _ => rfl
  have nums : ∀ (l : Str) (xs : List Num), Nums (words l) xs → ∃ v, lineToType toNum l = .ok v := by
    intro l xs hx
    unfold lineToType
    rw [nums_iff.1 hx]
    match xs with
    | [] => exact ⟨_, rfl⟩
    | [_] => exact ⟨_, rfl⟩
    | _ :: _ :: _ => exact ⟨_, rfl⟩
  obtain ⟨v1, hv1⟩ := nums _ _ hx1
  obtain ⟨v2, hv2⟩ := nums _ _ hx2
  have hc : lineToType Res.ok l3 = .ok (.one w) := by unfold lineToType; rw [hl3]; rfl
  obtain ⟨cart, hcart⟩ : ∃ c, cartesianOf (.one w) = .ok c := ⟨_, rfl⟩
  obtain ⟨a, ha⟩ := readBlocks_accepts (ns := ns) (nb := nb) (nk := nk) (pointBlocks text) 0
    ⟨List.replicate nk [.fin 0, .fin 0, .fin 0, .fin 0], List.replicate ns (List.replicate nk (List.replicate nb (.fin 0)))⟩ (by simp)
    (by have := h.count; omega) h.block
  have hs : ∀ n : Nat, size (n : Int) = .ok n := by intro n; unfold size; rw [if_neg (by omega)]; simp
  show ∃ d, fromList (readlines text) = .ok d
  unfold fromList
  rw [hi 0 l0 rfl, Res.ok_bind, ints _ _ hl0 (by simp), Res.ok_bind, hi 1 l1 rfl, Res.ok_bind, hv1, Res.ok_bind, hi 2 l2 rfl, Res.ok_bind, hv2, Res.ok_bind,
    hi 3 l3 rfl, Res.ok_bind, hc, Res.ok_bind, hi 4 l4 rfl, Res.ok_bind, hi 5 l5 rfl, Res.ok_bind, ints _ _ hl5 (by simp), Res.ok_bind]
  have u1 : unpack 3 (OneOrMany.many [sn, (nk : Int), nb]) = .ok [sn, nk, nb] := rfl
  have u2 : unpack 4 (OneOrMany.many [ni, na, p, (ns : Int)]) = .ok [ni, na, p, ns] := rfl
  rw [u1, Res.ok_bind, u2, Res.ok_bind]
  simp only
  rw [hs nk, Res.ok_bind, hs ns, Res.ok_bind, hs nb, Res.ok_bind, Eigenval.blocks_of_tame text h.breaks h.first h.last, ha, Res.ok_bind, hcart, Res.ok_bind]
  exact ⟨_, rfl⟩

/-- A small file with two bands and two spins, one number NaN and one infinite. -/
def sample : Str := c!"1 1 1 2\n0.5 NaN\n0\nCAR\nsys\n2 1 2\n\n0 0 0 1\n1 NaN -3.5\n2 4 -inf\n"

example : ∃ d, init none (some sample) = .ok d ∧ d.arrays.values = [[[.nan, .fin 4]], [[.fin (-7/2), .inf true]]] ∧ d.metadata.line1 = .many [.fin (1/2), .nan] := by
  have h : (init none (some sample) >>= fun d => .ok (d.arrays.values, d.metadata.line1)) = .ok ([[[.nan, .fin 4]], [[.fin (-7/2), .inf true]]], .many [.fin (1/2), .nan]) := by
    decide +kernel
  obtain ⟨d, h1, h2⟩ := Res.bind_eq_ok.1 h
  have := Res.ok.inj h2
  exact ⟨d, h1, (Prod.mk.inj this).1, (Prod.mk.inj this).2⟩

/-- The hypotheses of `C125_eigenval_accepted` are met. -/
example : File sample 2 1 2 := by
  have hr : readlines sample = [c!"1 1 1 2\n", c!"0.5 NaN\n", c!"0\n", c!"CAR\n", c!"sys\n", c!"2 1 2\n", c!"\n", c!"0 0 0 1\n", c!"1 NaN -3.5\n", c!"2 4 -inf\n"] := by
    decide +kernel
  have hp : pointBlocks sample = [[[c!"0", c!"0", c!"0", c!"1"], [c!"1", c!"NaN", c!"-3.5"], [c!"2", c!"4", c!"-inf"]]] := by decide +kernel
  have nm : ∀ {ws : List Str} {xs : List Num}, Res.mapM' toNum ws = .ok xs → Nums ws xs := nums_iff.2
  refine ⟨by decide +kernel, ?_, ⟨c!"2 4 -inf\n", by rw [hr]; rfl, by decide +kernel⟩, ?_, by rw [hp]; decide, ?_⟩
  · intro a b r h
    rw [hr] at h
    simp only [List.drop_succ_cons, List.drop_zero, List.cons.injEq] at h
    right; rw [← h.2.1]; decide +kernel
  · refine ⟨_, _, _, _, _, _, 1, 1, 1, 2, [.fin (1/2), .nan], [.fin 0], c!"CAR", by rw [hr]; rfl, ?_, nm (by decide +kernel), nm (by decide +kernel), by decide +kernel, ?_⟩
    · exact (Chgcar.ints_iff _ _).1 (by decide +kernel)
    · exact (Chgcar.ints_iff _ _).1 (by decide +kernel)
  · rw [hp]
    intro b hb
    rw [List.mem_singleton] at hb
    subst hb
    refine ⟨_, _, rfl, ⟨[.fin 0, .fin 0, .fin 0, .fin 1], nm (by decide +kernel), rfl⟩, ?_⟩
    intro line hl
    simp only [List.mem_cons, List.not_mem_nil, or_false] at hl
    rcases hl with rfl | rfl
    · exact ⟨_, _, 1, [.nan, .fin (-7/2)], rfl, by decide +kernel, by decide, by decide, nm (by decide +kernel), rfl⟩
    · exact ⟨_, _, 2, [.fin 4, .inf true], rfl, by decide +kernel, by decide, by decide, nm (by decide +kernel), rfl⟩

end Verif.EigenvalFull
