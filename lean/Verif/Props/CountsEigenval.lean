import Verif.Props.Eigenval
/-! C124 for EIGENVAL: impossible numbers of spins, k-points and bands. -/
set_option autoImplicit false
namespace Verif.Eigenval
open Verif Verif.Utils
open Verif.Kpoints (idx toFloat toInt)
open Verif.Doscar (unpack cartesianOf)

/-- C124 for EIGENVAL: an accepted file announces no number below zero and at least one k-point; the arrays have the sizes announced. Missing in the full
claim: no spins at all are not refused, see `C124_violation_eigenval`. -/
theorem C124_eigenval_partial (text : Str) (d : Data) (h : init none (some text) = .ok d) : ∃ (ns nk nb : Nat) (ni na p sn : Int) (l0 l5 : Str),
    (readlines text)[0]? = some l0 ∧ Ints l0 [ni, na, p, ns] ∧ (readlines text)[5]? = some l5 ∧ Ints l5 [sn, nk, nb] ∧ 0 < nk ∧
    d.arrays.kpoints.length = nk ∧ ∀ s k b, (at3 d.arrays.values s k b).isSome = true ↔ s < ns ∧ k < nk ∧ b < nb := by
  obtain ⟨l0, l1, l2, l3, l4, l5, ni, na, p, sn, nk, ns, nb, coord, e0, _, _, _, _, e5, i0, i5, _, _, _, _, _, _, _, _, _, _, _, _, _, hf⟩ :=
    fromList_ok h
  obtain ⟨r1, r2, r3, -, -⟩ := readBlocks_ok _ hf
  refine ⟨ns, nk, nb, ni, na, p, sn, l0, l5, e0, i0, e5, i5, ?_, r3, r2.elem⟩
  have : blocks ((readlines text).drop 6).flatten ≠ [] := by
    unfold blocks
    intro hn
    exact splitEmpty_ne_nil _ _ (List.map_eq_nil_iff.1 hn)
  have := List.length_pos_iff.2 this
  omega

theorem readBand_none {ns nb k : Nat} {e e' : Values} {point : List Str} (h : readBand ns nb k e point = .ok e') :
    readBand 0 nb k [] point = .ok [] := by
  unfold readBand at h ⊢
  obtain ⟨w, hw, h⟩ := Res.bind_eq_ok.1 h
  obtain ⟨n, hn, h⟩ := Res.bind_eq_ok.1 h
  obtain ⟨b, hb, h⟩ := Res.bind_eq_ok.1 h
  rw [hw, Res.ok_bind, hn, Res.ok_bind, hb, Res.ok_bind, List.take_zero]
  rfl

theorem readBands_none {ns nb k : Nat} (lines : List (List Str)) {e e' : Values} (h : Res.foldlM' (readBand ns nb k) e lines = .ok e') :
    Res.foldlM' (readBand 0 nb k) [] lines = .ok [] := by
  induction lines generalizing e with
  | nil => rfl
  | cons l ls ih =>
    simp only [Res.foldlM'] at h ⊢
    cases hx : readBand ns nb k e l with
    | ok y => rw [hx] at h; rw [readBand_none hx]; exact ih h
    | exit c => rw [hx] at h; cases h
    | raise x => rw [hx] at h; cases h

theorem readBlocks_none {ns nb : Nat} (bs : List (List (List Str) × Nat)) {a a' : Arrays} (h : Res.foldlM' (readBlock ns nb) a bs = .ok a') :
    Res.foldlM' (readBlock 0 nb) ⟨a.kpoints, []⟩ bs = .ok ⟨a'.kpoints, []⟩ := by
  induction bs generalizing a with
  | nil => cases h; rfl
  | cons b bs ih =>
    simp only [Res.foldlM'] at h ⊢
    cases hx : readBlock ns nb a b with
    | ok y =>
      rw [hx] at h
      have : readBlock 0 nb ⟨a.kpoints, []⟩ b = .ok ⟨y.kpoints, []⟩ := by
        unfold readBlock at hx ⊢
        split at hx
        · cases hx
        · obtain ⟨kpi, hk, hx⟩ := Res.bind_eq_ok.1 hx
          rw [hk, Res.ok_bind]
          split at hx
          · rename_i hlt
            rw [if_pos hlt]
            obtain ⟨kp, hkp, hx⟩ := Res.bind_eq_ok.1 hx
            obtain ⟨e, he, hx⟩ := Res.bind_eq_ok.1 hx
            cases hx
            rw [hkp, Res.ok_bind, readBands_none _ he, Res.ok_bind]
          · cases hx
      rw [this]
      exact ih h
    | exit c => rw [hx] at h; cases h
    | raise x => rw [hx] at h; cases h

/-- C124 is false of EIGENVAL files without spins: take any accepted file and print zero as the number of spins on its first line. The file is accepted,
with all its k-points and not a single eigenvalue. -/
theorem C124_violation_eigenval (t t' : Str) (d : Data) (h : init none (some t) = .ok d) (l0 : Str) (ht : readlines t' = (readlines t).set 0 l0)
    (ni na p : Int) (hl : Ints l0 [ni, na, p, 0]) : ∃ d', init none (some t') = .ok d' ∧ d'.arrays.kpoints = d.arrays.kpoints ∧ d'.arrays.values = [] ∧
      d'.metadata.nBands = d.metadata.nBands ∧ d'.metadata.nspin = 0 := by
  unfold init at h ⊢
  simp only at h ⊢
  unfold fromList at h
  obtain ⟨k0, e0, h⟩ := Res.bind_eq_ok.1 h
  obtain ⟨v0, f0, h⟩ := Res.bind_eq_ok.1 h
  obtain ⟨l1, e1, h⟩ := Res.bind_eq_ok.1 h
  obtain ⟨v1, f1, h⟩ := Res.bind_eq_ok.1 h
  obtain ⟨l2, e2, h⟩ := Res.bind_eq_ok.1 h
  obtain ⟨v2, f2, h⟩ := Res.bind_eq_ok.1 h
  obtain ⟨l3, e3, h⟩ := Res.bind_eq_ok.1 h
  obtain ⟨coord, f3, h⟩ := Res.bind_eq_ok.1 h
  obtain ⟨l4, e4, h⟩ := Res.bind_eq_ok.1 h
  obtain ⟨l5, e5, h⟩ := Res.bind_eq_ok.1 h
  obtain ⟨v5, f5, h⟩ := Res.bind_eq_ok.1 h
  obtain ⟨h5, g5, h⟩ := Res.bind_eq_ok.1 h
  obtain ⟨h0, g0, h⟩ := Res.bind_eq_ok.1 h
  have k0 := (Doscar.unpack_ok g0).2
  have k5 := (Doscar.unpack_ok g5).2
  have hlen : 0 < (readlines t).length := by
    have := (List.getElem?_eq_some_iff.1 (Doscar.idx_ok' e0)).1
    omega
  have hi : idx (readlines t') 0 = .ok l0 := by
    rw [ht]; unfold idx; rw [List.getElem?_set_self hlen]
  have hj : ∀ j, idx (readlines t') (j + 1) = idx (readlines t) (j + 1) := by
    intro j
    rw [ht]; unfold idx; rw [List.getElem?_set_ne (by omega)]
  have hd : (readlines t').drop 6 = (readlines t).drop 6 := by
    rw [ht, List.drop_set_of_lt (by omega)]
  have hv0 : lineToType toInt l0 = .ok (.many [ni, na, p, 0]) := by
    have : Res.mapM' toInt (words l0) = .ok [ni, na, p, 0] := by
      rw [Res.mapM'_eq_ok]
      refine hl.imp fun w x hx => ?_
      unfold toInt; rw [hx]
    unfold lineToType
    rw [this]
  match h0, k0, h5, k5, g5, h with
  | [ni', na', p', nsp], _, [sn, nkp, nbd], _, g5, h =>
    simp only at h
    obtain ⟨nk, hnk, h⟩ := Res.bind_eq_ok.1 h
    obtain ⟨ns, hns, h⟩ := Res.bind_eq_ok.1 h
    obtain ⟨nb, hnb, h⟩ := Res.bind_eq_ok.1 h
    obtain ⟨a, ha, h⟩ := Res.bind_eq_ok.1 h
    obtain ⟨cart, hcart, h⟩ := Res.bind_eq_ok.1 h
    cases h
    unfold fromList
    rw [hi, Res.ok_bind, hv0, Res.ok_bind, hj 0, e1, Res.ok_bind, f1, Res.ok_bind, hj 1, e2, Res.ok_bind, f2, Res.ok_bind, hj 2, e3, Res.ok_bind, f3,
      Res.ok_bind, hj 3, e4, Res.ok_bind, hj 4, e5, Res.ok_bind, f5, Res.ok_bind, g5, Res.ok_bind, hd]
    have hu : unpack 4 (OneOrMany.many [ni, na, p, 0]) = .ok [ni, na, p, 0] := rfl
    rw [hu, Res.ok_bind]
    simp only
    have hz : size 0 = .ok 0 := rfl
    rw [hnk, Res.ok_bind, hz, Res.ok_bind, hnb, Res.ok_bind]
    have := readBlocks_none _ ha
    simp only [List.replicate_zero]
    rw [this, Res.ok_bind, hcart, Res.ok_bind]
    exact ⟨_, rfl, rfl, rfl, rfl, rfl⟩

/-- Non-vacuity. -/
example : (∃ d, init none (some c!"1 1 1 1\n0\n0\nCAR\nsys\n2 1 2\n\n0 0 0 1\n1 -3.5 1\n2 4 0\n") = .ok d ∧ d.arrays.values = [[[-7/2, 4]]]) ∧
    (∃ d, init none (some c!"1 1 1 0\n0\n0\nCAR\nsys\n2 1 2\n\n0 0 0 1\n1 -3.5 1\n2 4 0\n") = .ok d ∧ d.arrays = ⟨[[0, 0, 0, 1]], []⟩) ∧
    init none (some c!"1 1 1 1\n0\n0\nCAR\nsys\n2 1 -2\n\n0 0 0 1\n1 -3.5 1\n2 4 0\n") = .raise .valueError := by
  refine ⟨?_, ?_, by decide +kernel⟩
  · have h : (init none (some c!"1 1 1 1\n0\n0\nCAR\nsys\n2 1 2\n\n0 0 0 1\n1 -3.5 1\n2 4 0\n") >>= fun d => .ok d.arrays.values) = .ok [[[-7/2, 4]]] := by decide +kernel
    obtain ⟨d, h1, h2⟩ := Res.bind_eq_ok.1 h
    exact ⟨d, h1, Res.ok.inj h2⟩
  · have h : (init none (some c!"1 1 1 0\n0\n0\nCAR\nsys\n2 1 2\n\n0 0 0 1\n1 -3.5 1\n2 4 0\n") >>= fun d => .ok d.arrays) = .ok ⟨[[0, 0, 0, 1]], []⟩ := by decide +kernel
    obtain ⟨d, h1, h2⟩ := Res.bind_eq_ok.1 h
    exact ⟨d, h1, Res.ok.inj h2⟩

end Verif.Eigenval
