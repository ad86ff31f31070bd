import Verif.Props.VasprunEigen
/-! # vasprun.xml: projections (C48) -/
set_option autoImplicit false
namespace Verif.Vasprun
open Verif Verif.Utils Verif.Xml
open Verif.Kpoints (idx toFloat toInt)
open Verif.Chgcar (chunks chunks_length chunks_get chunk_elem list_ext)

/-! ### specification -/

/-- The `set` elements directly in an element. -/
def setsIn (s : Node) : List Node := s.children.filter fun n => decide (n.tag = c!"set")

/-- One `set` for each of `nk` k-points, in it one for each of `nb` bands, in it `na` rows of `c` numbers. -/
def Regular3 (sets : List Node) (na nb nk c : Nat) : Prop :=
  sets.length = nk ∧ ∀ s ∈ sets, (setsIn s).length = nb ∧ ∀ u ∈ setsIn s, (rowsIn u).length = na ∧ AllPrint c (rowsIn u)

/-- The numbers printed for atom `a`, band `b` and k-point `k`. -/
def AtomRow (sets : List Node) (a k b : Nat) (row : List Rat) : Prop :=
  ∃ s u e, sets[k]? = some s ∧ (setsIn s)[b]? = some u ∧ (rowsIn u)[a]? = some e ∧ Prints e row

/-- An array by atom, and then by band and k-point (or k-point and band). -/
def Placed3 {α : Type} (kBeforeBand : Bool) (na nb nk : Nat) (R : Nat → Nat → Nat → α → Prop) (p : List (List (List α))) : Prop :=
  p.length = na ∧ ∀ a x, p[a]? = some x → Placed kBeforeBand nb nk (R a) x

/-- The `set` elements of the k-points for one spin in the projections. -/
def projSets (root : Node) (spin : Str) : List Node :=
  findAny root (t c!"calculation") [t c!"projected", t c!"array", t c!"set", tc c!"set" spin, t c!"set"]

/-- Values by spin, with the names of the projections. -/
def BySpin' {α : Type} (P : Str → α → Prop) (one : Prop) (v : Spins α) : Prop :=
  match v with
  | .total a => one ∧ P c!"spin1" a
  | .updown a b => ¬ one ∧ P c!"spin1" a ∧ P c!"spin2" b

/-! ### arrays -/

theorem filterMap_all {α β : Type} {f : α → Option β} {l : List α} (h : ∀ a ∈ l, ∃ b, f a = some b) :
    (l.filterMap f).length = l.length ∧ ∀ i : Nat, (l.filterMap f)[i]? = l[i]?.bind f := by
  induction l with
  | nil => exact ⟨rfl, fun i => by simp⟩
  | cons a as ih =>
    obtain ⟨b, hb⟩ := h a (List.mem_cons_self ..)
    obtain ⟨h1, h2⟩ := ih fun a ha => h a (List.mem_cons_of_mem _ ha)
    rw [List.filterMap_cons_some hb]
    refine ⟨by simp [h1], fun i => ?_⟩
    cases i with
    | zero => simp [hb]
    | succ i => simp [h2]

theorem convert2D_fit {n c : Nat} {es : List Node} {rows : Table} (h : List.Forall₂ (fun e r => Prints e r ∧ r.length = c) es rows) :
    convert2D es n = .ok (rows.map (fitRow n)) := by
  unfold convert2D
  rw [Res.mapM'_eq_ok]
  induction h with
  | nil => exact .nil
  | cons hr _ ih => exact .cons (by rw [hr.1.fromText, Res.ok_bind]) ih

theorem mapM'_split {α : Type} {nb na : Nat} (hb : 0 < nb) {d : List (List α)} (h : ∀ x ∈ d, x.length = nb * na) :
    Res.mapM' (fun x => split nb x) d = .ok (d.map (chunks na nb)) :=
  Res.mapM'_ok_of_forall _ fun x hx => split_of_length hb (h x hx)

theorem selects_set : (t c!"set").selects = fun n => decide (n.tag = c!"set") := by
  funext n; rw [Bool.eq_iff_iff]; simp [Step.selects, t]; exact ⟨of_decide_eq_true, decide_eq_true⟩

theorem follow_sets (sets : List Node) : follow [t c!"set", t c!"r"] sets = sets.flatMap fun s => (setsIn s).flatMap rowsIn := by
  simp only [follow, selects_set, selects_r, List.flatMap_assoc]; rfl

theorem Regular3.inner {sets : List Node} {na nb nk c : Nat} (h : Regular3 sets na nb nk c) {s : Node} (hs : s ∈ sets) :
    ((setsIn s).flatMap rowsIn).length = nb * na := by
  rw [flatMap_length fun u hu => ((h.2 s hs).2 u hu).1, (h.2 s hs).1]

theorem Regular3.length {sets : List Node} {na nb nk c : Nat} (h : Regular3 sets na nb nk c) :
    (sets.flatMap fun s => (setsIn s).flatMap rowsIn).length = nk * (nb * na) := by
  rw [flatMap_length (n := nb * na) fun s hs => h.inner hs, h.1]

theorem Regular3.allPrint {sets : List Node} {na nb nk c : Nat} (h : Regular3 sets na nb nk c) : AllPrint c (sets.flatMap fun s => (setsIn s).flatMap rowsIn) := by
  intro e he
  obtain ⟨s, hs, he⟩ := List.mem_flatMap.1 he
  obtain ⟨u, hu, he⟩ := List.mem_flatMap.1 he
  exact ((h.2 s hs).2 u hu).2 e he

theorem lt_of_lt_mul {k b nk nb : Nat} (hk : k < nk) (hb : b < nb) : k * nb + b < nk * nb := by
  calc k * nb + b < k * nb + nb := by omega
    _ = (k + 1) * nb := by rw [Nat.add_mul]; omega
    _ ≤ nk * nb := Nat.mul_le_mul_right _ hk

/-- The place of a row in the list of all rows. -/
theorem Regular3.at {sets : List Node} {na nb nk c : Nat} (h : Regular3 sets na nb nk c) {rows : Table}
    (hr : List.Forall₂ (fun e r => Prints e r ∧ r.length = c) (sets.flatMap fun s => (setsIn s).flatMap rowsIn) rows) {a k b : Nat}
    (ha : a < na) (hk : k < nk) (hb : b < nb) : ∃ row, AtomRow sets a k b row ∧ row.length = c ∧ rows[k * (nb * na) + (b * na + a)]? = some row := by
  have hi := lt_of_lt_mul hb ha
  have hj := lt_of_lt_mul hk hi
  have hl : rows.length = nk * (nb * na) := by rw [← hr.length_eq, h.length]
  have hlt : k * (nb * na) + (b * na + a) < rows.length := by omega
  have hlt' : k * (nb * na) + (b * na + a) < (sets.flatMap fun s => (setsIn s).flatMap rowsIn).length := by rw [hr.length_eq]; exact hlt
  have hg := flatMap_get (f := fun s => (setsIn s).flatMap rowsIn) (l := sets) (fun s hs => h.inner hs) (k := k) hi
  rw [List.getElem?_eq_getElem hlt'] at hg
  obtain ⟨s, hs, he⟩ := Option.bind_eq_some_iff.1 hg.symm
  have hs' := List.mem_of_getElem? hs
  rw [flatMap_get (fun u hu => ((h.2 s hs').2 u hu).1) ha] at he
  obtain ⟨u, hu, he⟩ := Option.bind_eq_some_iff.1 he
  have hp := hr.get hlt' hlt
  exact ⟨rows[k * (nb * na) + (b * na + a)], ⟨s, u, _, hs, hu, he, hp.1⟩, hp.2, List.getElem?_eq_getElem hlt⟩

/-- The arrangement of rows by k-point, band and atom, as the code computes it. -/
theorem arrange {na nb nk : Nat} (hb : 0 < nb) (hk : 0 < nk) {rows : List (List Rat)} (hl : rows.length = nk * (nb * na)) (kbb : Bool)
    {R : Nat → Nat → Nat → List Rat → Prop} (h : ∀ a k b, a < na → k < nk → b < nb → ∃ row, R a k b row ∧ rows[k * (nb * na) + (b * na + a)]? = some row) :
    ∃ d, (split nk rows >>= fun d => Res.mapM' (fun x => split nb x) d >>= fun k => .ok (swap nb k)) = .ok d ∧
      Placed3 kbb na nb nk R (atomFirst kbb na nk nb d) := by
  have hs := chunks_shape hl
  rw [split_of_length hk hl, Res.ok_bind, mapM'_split hb hs.2]
  simp only [Res.ok_bind]
  refine ⟨_, rfl, ?_⟩
  generalize hD : (chunks (nb * na) nk rows).map (chunks na nb) = D
  have hD' : Shape nk nb D := by
    subst hD
    refine ⟨by simp [hs.1], fun r hr => ?_⟩
    obtain ⟨x, _, rfl⟩ := List.mem_map.1 hr
    exact chunks_length ..
  have hX := hD'.swap
  have hval : ∀ a k b, a < na → k < nk → b < nb → ∃ row, R a k b row ∧ (at2 D k b).bind (fun x => x[a]?) = some row := by
    intro a k b ha hk' hb'
    obtain ⟨row, h1, h2⟩ := h a k b ha hk' hb'
    refine ⟨row, h1, ?_⟩
    subst hD
    unfold at2
    rw [List.getElem?_map, chunks_get _ _ _ hk']
    simp only [Option.map_some, Option.bind_some]
    have := at2_chunks (l := (rows.drop (k * (nb * na))).take (nb * na)) hb' ha
    unfold at2 at this
    rw [this, List.getElem?_take_of_lt (lt_of_lt_mul hb' ha), List.getElem?_drop, h2]
  have hval' : ∀ a k b, a < na → k < nk → b < nb → ∃ row, R a k b row ∧ ((swap nb D)[b]?.bind fun ks => ks[k]?.bind fun as => as[a]?) = some row := by
    intro a k b ha hk' hb'
    obtain ⟨row, h1, h2⟩ := hval a k b ha hk' hb'
    refine ⟨row, h1, ?_⟩
    have := at2_swap hD' hb' k
    rw [← this] at h2
    unfold at2 at h2
    rwa [Option.bind_assoc] at h2
  unfold atomFirst
  refine ⟨by simp, fun a x hx => ?_⟩
  simp only [List.getElem?_map, Option.map_map] at hx
  obtain ⟨a', ha', rfl⟩ := Option.map_eq_some_iff.1 hx
  obtain ⟨ha, rfl⟩ := List.getElem?_eq_some_iff.1 ha'
  simp only [List.length_range] at ha
  simp only [List.getElem_range, Function.comp]
  have hin : ∀ k : Nat, k < nk → ((swap nb D).filterMap fun ks => ks[k]?.bind fun as => as[a]?).length = nb ∧
      ∀ b : Nat, ((swap nb D).filterMap fun ks => ks[k]?.bind fun as => as[a]?)[b]? = (swap nb D)[b]?.bind fun ks => ks[k]?.bind fun as => as[a]? := by
    intro k hk'
    have := filterMap_all (f := fun ks : List (List (List Rat)) => ks[k]?.bind fun as => as[a]?) (l := swap nb D) (by
      intro ks hks
      obtain ⟨b, hb', rfl⟩ := List.mem_iff_getElem.1 hks
      rw [hX.1] at hb'
      obtain ⟨row, _, h2⟩ := hval' a k b ha hk' hb'
      rw [List.getElem?_eq_getElem (by rw [hX.1]; exact hb')] at h2
      exact ⟨row, h2⟩)
    rw [hX.1] at this
    exact this
  have hY : Shape nk nb ((List.range nk).map fun k => (swap nb D).filterMap fun ks => ks[k]?.bind fun as => as[a]?) := by
    refine ⟨by simp, fun r hr => ?_⟩
    obtain ⟨k, hk', rfl⟩ := List.mem_map.1 hr
    exact (hin k (List.mem_range.1 hk')).1
  refine bandFirst_placed (kbb := kbb) hY fun k b hk' hb' => ?_
  obtain ⟨row, h1, h2⟩ := hval' a k b ha hk' hb'
  refine ⟨row, h1, ?_⟩
  unfold at2
  rw [List.getElem?_map, List.getElem?_range hk']
  simp only [Option.map_some, Option.bind_some]
  rw [(hin k hk').2 b, h2]

theorem projRows_ok {sets : List Node} {na nb nk c : Nat} (h : Regular3 sets na nb nk c) (hb : 0 < nb) (hk : 0 < nk) (kbb : Bool) :
    ∃ d, projRows nk nb (sets.flatMap fun s => (setsIn s).flatMap rowsIn) = .ok d ∧
      Placed3 kbb na nb nk (fun a k b x => ∃ row, AtomRow sets a k b row ∧ row.length = c ∧ x = fitRow 9 row) (atomFirst kbb na nk nb d) := by
  obtain ⟨rows, hr⟩ := h.allPrint.rows
  unfold projRows
  rw [convert2D_fit hr, Res.ok_bind]
  refine arrange hb hk (by rw [List.length_map, ← hr.length_eq, h.length]) kbb fun a k b ha hk' hb' => ?_
  obtain ⟨row, h1, h2, h3⟩ := h.at hr ha hk' hb'
  exact ⟨_, ⟨row, h1, h2, rfl⟩, by rw [List.getElem?_map, h3]; rfl⟩

/-! ### C48 -/

theorem proj_path (root : Node) (spin : Str) :
    findAny root (t c!"calculation") [t c!"projected", t c!"array", t c!"set", tc c!"set" spin, t c!"set", t c!"set", t c!"r"] =
      (projSets root spin).flatMap fun s => (setsIn s).flatMap rowsIn := by
  rw [← follow_sets, projSets, ← findAny_append]; rfl

theorem Regular3.rows_ne {sets : List Node} {na nb nk c : Nat} (h : Regular3 sets na nb nk c) (ha : 0 < na) (hb : 0 < nb) (hk : 0 < nk) :
    (sets.flatMap fun s => (setsIn s).flatMap rowsIn) ≠ [] := by
  intro e
  have h1 := h.length
  have h2 := Nat.mul_pos hk (Nat.mul_pos hb ha)
  rw [e] at h1; simp only [List.length_nil] at h1; omega

/-- What an accepted document yields for regular projections of `c` numbers: rows of nine numbers `fitRow 9 row`. -/
theorem projectors_fit (root : Node) (kbb all : Bool) (d : Data) (h : parsew root kbb all = .ok d) (na nb nk c : Nat) (ha : 0 < na) (hb : 0 < nb) (hk : 0 < nk)
    (h1 : Regular3 (projSets root c!"spin1") na nb nk c) (h2 : projSets root c!"spin2" = [] ∨ Regular3 (projSets root c!"spin2") na nb nk c)
    (hn : d.params.nbands = some (nb : Int)) (hks : ∀ ks, d.kpoints = some ks → ks.length = nk) :
    (∃ sp, d.species = some sp ∧ sp.length = na) ∧
    ∃ p, d.projectors = some p ∧ BySpin' (fun spin x => Placed3 kbb na nb nk
      (fun a k b x => ∃ row, AtomRow (projSets root spin) a k b row ∧ row.length = c ∧ x = fitRow 9 row) x) (projSets root c!"spin2" = []) p := by
  have he := (parts h).projectors
  unfold fetchProjectors at he
  simp only [proj_path] at he
  have hne := h1.rows_ne ha hb hk
  generalize hrows : ((projSets root c!"spin1").flatMap fun s => (setsIn s).flatMap rowsIn) = rows at he hne
  cases rows with
  | nil => exact absurd rfl hne
  | cons r0 rs =>
    simp only at he
    obtain ⟨p, hp, he⟩ := Res.bind_eq_ok.1 he
    injection he with he
    rw [← hrows] at hp
    unfold extractProjectors at hp
    cases hkp : d.kpoints with
    | none => rw [hkp] at hp; cases hp
    | some ks =>
      rw [hkp] at hp
      have hkl := hks ks hkp
      simp only at hp
      cases hi : d.params.ispin with
      | none => rw [hi] at hp; cases hp
      | some i =>
        rw [hi] at hp
        simp only [hn] at hp
        cases hsp : d.species with
        | none => rw [hsp] at hp; cases hp
        | some sp =>
          rw [hsp] at hp
          simp only [hkl] at hp
          split at hp
          · cases hp
          · rename_i hlen
            have hna : sp.length = na := by
              have : nk * (nb * na) = nb * nk * sp.length := by
                rw [h1.length] at hlen
                exact_mod_cast not_not.1 hlen
              rw [← Nat.mul_assoc, Nat.mul_comm nk nb] at this
              exact (Nat.eq_of_mul_eq_mul_left (Nat.mul_pos hb hk) this).symm
            rw [hna, Int.toNat_natCast] at hp
            obtain ⟨d1, hd1, hp1⟩ := projRows_ok h1 hb hk kbb
            rw [hd1, Res.ok_bind] at hp
            refine ⟨⟨sp, rfl, hna⟩, p, he.symm, ?_⟩
            by_cases hs2 : projSets root c!"spin2" = []
            · rw [hs2] at hp
              simp only [List.flatMap_nil, nonEmpty, List.isEmpty_nil, if_true] at hp
              injection hp with hp
              rw [← hp]
              exact ⟨hs2, hp1⟩
            · have h2 := h2.resolve_left hs2
              obtain ⟨d2, hd2, hp2⟩ := projRows_ok h2 hb hk kbb
              have hne2 : nonEmpty ((projSets root c!"spin2").flatMap fun s => (setsIn s).flatMap rowsIn) =
                  some ((projSets root c!"spin2").flatMap fun s => (setsIn s).flatMap rowsIn) := by
                unfold nonEmpty
                rw [if_neg (by simpa using h2.rows_ne ha hb hk)]
              rw [hne2] at hp
              simp only at hp
              rw [if_neg (by rw [h2.length, ← Nat.mul_assoc, Nat.mul_comm nk nb]; push_cast; simp), hd2, Res.ok_bind] at hp
              injection hp with hp
              rw [← hp]
              exact ⟨hs2, hp1, hp2⟩

/-- **C48** for projections in nine columns (s, p and d orbitals with all magnetic quantum numbers), for all numbers of atoms, bands and k-points: in
an accepted document the nine numbers printed for atom `a`, band `b` and k-point `k` are `projectors[a][b][k]` (`[a][k][b]` if wanted). Missing: other numbers of columns, for which the claim is false (`C48_violation_*`). -/
theorem C48_projectors_partial (root : Node) (kbb all : Bool) (d : Data) (h : parsew root kbb all = .ok d) (na nb nk : Nat) (ha : 0 < na) (hb : 0 < nb)
    (hk : 0 < nk) (h1 : Regular3 (projSets root c!"spin1") na nb nk 9)
    (h2 : projSets root c!"spin2" = [] ∨ Regular3 (projSets root c!"spin2") na nb nk 9)
    (hn : d.params.nbands = some (nb : Int)) (hks : ∀ ks, d.kpoints = some ks → ks.length = nk) :
    (∃ sp, d.species = some sp ∧ sp.length = na) ∧
    ∃ p, d.projectors = some p ∧ BySpin' (fun spin x => Placed3 kbb na nb nk (AtomRow (projSets root spin)) x) (projSets root c!"spin2" = []) p := by
  obtain ⟨g1, p, hp, hs⟩ := projectors_fit root kbb all d h na nb nk 9 ha hb hk h1 h2 hn hks
  refine ⟨g1, p, hp, ?_⟩
  have key : ∀ (sets : List Node) (x : List (List Table)), Placed3 kbb na nb nk
      (fun a k b x => ∃ row, AtomRow sets a k b row ∧ row.length = 9 ∧ x = fitRow 9 row) x → Placed3 kbb na nb nk (AtomRow sets) x := by
    rintro sets x ⟨g1, g2⟩
    refine ⟨g1, fun a y hy => ⟨(g2 a y hy).1, fun b k hb hk => ?_⟩⟩
    obtain ⟨z, ⟨row, hr, hl, rfl⟩, hz⟩ := (g2 a y hy).2 b k hb hk
    unfold fitRow at hz
    rw [if_pos hl] at hz
    exact ⟨row, hr, hz⟩
  cases p with
  | total x => exact ⟨hs.1, key _ _ hs.2⟩
  | updown x y => exact ⟨hs.1, key _ _ hs.2.1, key _ _ hs.2.2⟩

/-- C48 is false for every other number of columns (three without magnetic quantum numbers, sixteen with f orbitals): all projections of the
accepted document are zero, whatever is printed. -/
theorem C48_violation_columns (root : Node) (kbb all : Bool) (d : Data) (h : parsew root kbb all = .ok d) (na nb nk c : Nat) (ha : 0 < na) (hb : 0 < nb)
    (hk : 0 < nk) (hc : c ≠ 9) (hc1 : c ≠ 1) (h1 : Regular3 (projSets root c!"spin1") na nb nk c) (h2 : projSets root c!"spin2" = [])
    (hn : d.params.nbands = some (nb : Int)) (hks : ∀ ks, d.kpoints = some ks → ks.length = nk) :
    ∃ p, d.projectors = some (.total p) ∧ Placed3 kbb na nb nk (fun _ _ _ x => x = [0, 0, 0, 0, 0, 0, 0, 0, 0]) p := by
  obtain ⟨_, p, hp, hs⟩ := projectors_fit root kbb all d h na nb nk c ha hb hk h1 (.inl h2) hn hks
  cases p with
  | updown x y => exact absurd h2 hs.1
  | total x =>
    refine ⟨x, hp, hs.2.1, fun a y hy => ⟨(hs.2.2 a y hy).1, fun b k hb hk => ?_⟩⟩
    obtain ⟨z, ⟨row, hr, hl, rfl⟩, hz⟩ := (hs.2.2 a y hy).2 b k hb hk
    refine ⟨_, ?_, hz⟩
    unfold fitRow
    rw [if_neg (by omega)]
    split
    · simp at hl; omega
    · rfl

/-- C48, wrong numbers of rows are refused, missing data too. -/
theorem C48_counts (p : Params) (kbb : Bool) (sp : List Nat) (ks : Table) (s1 : List Node) (s2 : Option (List Node)) (i nb : Int) (hi : p.ispin = some i)
    (hn : p.nbands = some nb) (hl : (s1.length : Int) ≠ nb * ks.length * sp.length) :
    extractProjectors p kbb (some sp) (some ks) s1 s2 = .exit 505 ∧ extractProjectors p kbb (some sp) none s1 s2 = .exit 504 ∧
    extractProjectors { p with ispin := none } kbb (some sp) (some ks) s1 s2 = .exit 502 ∧
    extractProjectors { p with nbands := none } kbb (some sp) (some ks) s1 s2 = .exit 503 ∧
    extractProjectors p kbb none (some ks) s1 s2 = .exit 503 := by
  unfold extractProjectors
  simp only [hi, hn]
  exact ⟨if_pos hl, trivial, trivial, trivial, trivial⟩

/-- Two atoms. -/
def sampleAtoms : Node := box c!"atominfo" [named c!"array" c!"atoms" [box c!"set" [box c!"rc" [leaf c!"c" c!"Si ", leaf c!"c" c!"   1"],
  box c!"rc" [leaf c!"c" c!"Si ", leaf c!"c" c!"   1"]]]]
/-- The rows of two atoms for one band. -/
def sampleBand (x y : Str) : Node := box c!"set" [leaf c!"r" (x ++ c!" 0 0 0 0 0 0 0 0.5"), leaf c!"r" (y ++ c!" 0 0 0 0 0 0 0 0.25")]
/-- A document with two k-points, two bands and two atoms. -/
def projDoc : Node := box c!"modeling" [sampleKpoints, sampleParams c!" 2 " c!" 1 ", sampleAtoms, box c!"calculation" [box c!"projected"
  [box c!"array" [box c!"set" [commented c!"set" c!"spin1" [box c!"set" [sampleBand c!"1" c!"2", sampleBand c!"3" c!"4"],
    box c!"set" [sampleBand c!"5" c!"6", sampleBand c!"7" c!"8"]]]]]]]

example : ∃ d p, parsew projDoc false true = .ok d ∧ d.params.nbands = some 2 ∧ (projSets projDoc c!"spin1").length = 2 ∧
    projSets projDoc c!"spin2" = [] ∧ d.projectors = some (.total p) ∧
    p.map (fun x => x.map fun y => y.map fun z => (z[0]?, z[8]?)) =
      [[[(some 1, some (1/2)), (some 5, some (1/2))], [(some 3, some (1/2)), (some 7, some (1/2))]],
       [[(some 2, some (1/4)), (some 6, some (1/4))], [(some 4, some (1/4)), (some 8, some (1/4))]]] := by
  refine ⟨_, _, rfl, by decide +kernel, rfl, rfl, rfl, by decide +kernel⟩

/-- Three columns. -/
example : ∃ d p, parsew (box c!"modeling" [sampleKpoints, sampleParams c!" 1 " c!" 1 ", sampleAtoms, box c!"calculation" [box c!"projected"
    [box c!"array" [box c!"set" [commented c!"set" c!"spin1" [box c!"set" [box c!"set" [leaf c!"r" c!" 1 2 3", leaf c!"r" c!" 1 2 3"]],
      box c!"set" [box c!"set" [leaf c!"r" c!" 1 2 3", leaf c!"r" c!" 1 2 3"]]]]]]]]) false true = .ok d ∧ d.projectors = some (.total p) ∧
    (p.flatten.flatten.flatten.all fun x => x = 0) = true := ⟨_, _, rfl, rfl, by decide +kernel⟩

end Verif.Vasprun
