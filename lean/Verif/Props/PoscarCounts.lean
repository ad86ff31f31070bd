import Verif.Props.PoscarRead
/-! # The species of the sites of a POSCAR, whatever the counts (C134) -/
set_option autoImplicit false
namespace Verif.Poscar
open Verif Verif.Utils
open Verif.Kpoints (idx toInt toFloat)

/-- Specification: the counts as the reader takes them: below zero is zero in the first place and anything below one is one in the
others. -/
def taken : List Int → List Nat
  | [] => []
  | c :: cs => c.toNat :: cs.map fun d => max 1 d.toNat

theorem readSites_taken (h : Header) (lines : List Str) (n i slot : Nat) (index : Int) (raws : List Raw)
    (hr : readSites h lines n i slot index = .ok raws) (a : Int) (rest : List Int) (hd : h.atoms.drop slot = a :: rest)
    (hn : n ≤ (a - index + 1).toNat + (rest.map fun d => max 1 d.toNat).sum) :
    raws.map Raw.specie = (expand (h.spec.drop slot) ((a - index + 1).toNat :: rest.map fun d => max 1 d.toNat)).take n := by
  induction n generalizing i slot index raws a rest with
  | zero => unfold readSites at hr; cases hr; rfl
  | succ n ih =>
    unfold readSites at hr
    simp only [Res.bind_eq_ok] at hr
    obtain ⟨a', ha', s, hs, line, hline, v, hv, f, hf, more, hmore, heq⟩ := hr
    cases heq
    have haa : a' = a := by
      have := idx_ok.1 ha'
      have h3 : (h.atoms.drop slot)[0]? = some a' := by rw [List.getElem?_drop]; simpa using this
      rw [hd] at h3; simpa using h3.symm
    subst haa
    by_cases hgt : index > a'
    · rw [if_pos hgt, if_pos hgt] at hmore
      rw [if_pos hgt] at hs
      have ha0 : (a' - index + 1).toNat = 0 := by omega
      rw [ha0] at hn ⊢
      cases rest with
      | nil => simp at hn
      | cons b bs =>
        have hd' : h.atoms.drop (slot + 1) = b :: bs := by rw [← List.tail_drop, hd]; rfl
        simp only [List.map_cons, List.sum_cons] at hn
        have hb : max 1 b.toNat = (b - (1 + 1) + 1).toNat + 1 := by omega
        have hrec := ih (i + 1) (slot + 1) (1 + 1) more hmore b bs hd' (by omega)
        have hsp := drop_of_idx (idx_ok.1 hs)
        cases hdr : h.spec.drop slot with
        | nil =>
          have : h.spec.drop (slot + 1) = [] := by rw [← List.tail_drop, hdr]; rfl
          rw [this] at hsp; cases hsp
        | cons t ts =>
          have : h.spec.drop (slot + 1) = ts := by rw [← List.tail_drop, hdr]; rfl
          rw [this] at hsp hrec
          rw [List.map_cons, hrec, hsp, expand_cons, expand_cons, List.map_cons, expand_cons, hb]
          simp [List.replicate_succ]
    · rw [if_neg hgt, if_neg hgt] at hmore
      rw [if_neg hgt] at hs
      have ha1 : (a' - index + 1).toNat = (a' - (index + 1) + 1).toNat + 1 := by omega
      have hrec := ih (i + 1) slot (index + 1) more hmore a' rest hd (by omega)
      have hsp := drop_of_idx (idx_ok.1 hs)
      rw [hsp, expand_cons] at hrec
      rw [hsp, expand_cons, List.map_cons, hrec, ha1]
      simp [List.replicate_succ]

theorem sum_le_taken (cs : List Int) : cs.sum ≤ ((cs.map fun d => max 1 d.toNat).sum : Nat) := by
  induction cs with
  | nil => simp
  | cons c cs ih =>
    simp only [List.map_cons, List.sum_cons]
    omega

/-- C134: in every POSCAR that can be read, with the species line `l5` and the count line `l6`, the number of sites is the sum of the counts and
their species are the first that many names of the expansion of the species line by the counts taken. -/
theorem C134_species (lines : List Str) (p : Parsed) (h : parse lines = .ok p) :
    ∃ l5 l6 counts, lines[5]? = some l5 ∧ lines[6]? = some l6 ∧ Res.mapM' toInt (words l6) = .ok counts ∧ (p.sites.length : Int) = counts.sum ∧
      p.sites.map Site.specie = ((expand (words l5) (taken counts)).take p.sites.length).map lower := by
  obtain ⟨hd, raws, v, q, hhd, hnn, hraws, rfl⟩ := parse_ok h
  obtain ⟨l5, l6, h5, h6, hsp, hat⟩ := readHeader_ok hhd
  have hlen := readSites_length _ _ _ _ _ _ _ hraws
  have hl : ((assemble raws v q).length : Int) = hd.atoms.sum := by simp [assemble, hlen, hnn]
  refine ⟨l5, l6, hd.atoms, h5, h6, hat, hl, ?_⟩
  show (assemble raws v q).map Site.specie = ((expand (words l5) (taken hd.atoms)).take (assemble raws v q).length).map lower
  have hcomp : raws.map (fun r => lower r.specie) = (raws.map Raw.specie).map lower := by rw [List.map_map]; rfl
  rw [assemble_specie, hcomp]
  congr 1
  have hl' : (assemble raws v q).length = hd.atoms.sum.toNat := by omega
  rw [hl', ← hsp]
  cases hcs : hd.atoms with
  | nil =>
    rw [hcs] at hraws
    simp only [List.sum_nil, Int.toNat_zero] at hraws
    unfold readSites at hraws; cases hraws
    simp
  | cons a rest =>
    have := readSites_taken hd lines _ 0 0 1 raws hraws a rest (by rw [List.drop_zero, hcs])
      (by
        rw [hcs]
        have := sum_le_taken rest
        simp only [List.sum_cons]
        omega)
    rw [this, List.drop_zero, hcs, taken, show a - 1 + 1 = a by omega]

/-- Non-vacuity: the counts `1 0 1` for `H He Li`. -/
example : (∃ p, parse zeroCountLines = .ok p) ∧ taken [1, 0, 1] = [1, 1, 1] ∧
    (expand [c!"H", c!"He", c!"Li"] (taken [1, 0, 1])).take 2 = [c!"H", c!"He"] := by
  refine ⟨⟨⟨c!"c", some ⟨⟨1, 0, 0⟩, ⟨0, 1, 0⟩, ⟨0, 0, 1⟩⟩,
    [Site.new c!"h" ⟨0, 0, 0⟩ (true, true, true) none none true, Site.new c!"he" ⟨1/2, 0, 0⟩ (true, true, true) none none true]⟩, ?_⟩, ?_, ?_⟩ <;>
    decide +kernel

end Verif.Poscar
