import Verif.Props.VasprunBasics
/-! # vasprun.xml: eigenvalues, occupancies and eigenvelocities (C47, C73) -/
set_option autoImplicit false
namespace Verif.Vasprun
open Verif Verif.Utils Verif.Xml
open Verif.Kpoints (idx toFloat toInt)
open Verif.Chgcar (chunks chunks_length chunks_get chunk_elem list_ext)

/-! ### specification -/

/-- The `r` elements directly in an element. -/
def rowsIn (s : Node) : List Node := s.children.filter fun n => decide (n.tag = c!"r")

/-- One `set` for each of `nk` k-points, with `nb` rows of `c` numbers. -/
def Regular (sets : List Node) (nb nk c : Nat) : Prop := sets.length = nk ∧ ∀ s ∈ sets, (rowsIn s).length = nb ∧ AllPrint c (rowsIn s)

/-- The numbers printed for band `b` of k-point `k` (both counted from zero). -/
def BandRow (sets : List Node) (k b : Nat) (row : List Rat) : Prop := ∃ s e, sets[k]? = some s ∧ (rowsIn s)[b]? = some e ∧ Prints e row

/-- Number `c` printed for band `b` of k-point `k`. -/
def BandNumber (c : Nat) (sets : List Node) (k b : Nat) (x : Rat) : Prop := ∃ row, BandRow sets k b row ∧ row[c]? = some x

/-- An array by band and k-point (by k-point and band if wanted) holds the values that `R` describes. -/
def Placed {α : Type} (kBeforeBand : Bool) (nb nk : Nat) (R : Nat → Nat → α → Prop) (a : List (List α)) : Prop :=
  (if kBeforeBand then Shape nk nb a else Shape nb nk a) ∧
  ∀ b k, b < nb → k < nk → ∃ x, R k b x ∧ (if kBeforeBand then at2 a k b else at2 a b k) = some x

/-- The `set` elements of the k-points for one spin in the eigenvalues of the calculations. -/
def eigenSets (root : Node) (spin : Str) : List Node :=
  findAny root (t c!"calculation") [t c!"eigenvalues", t c!"array", t c!"set", tc c!"set" spin, t c!"set"]

/-- Values by spin: one if the second spin is absent, otherwise two. -/
def BySpin {α : Type} (P : Str → α → Prop) (one : Prop) (v : Spins α) : Prop :=
  match v with
  | .total a => one ∧ P c!"spin 1" a
  | .updown a b => ¬ one ∧ P c!"spin 1" a ∧ P c!"spin 2" b

/-! ### rows -/

theorem selects_r : (t c!"r").selects = fun n => decide (n.tag = c!"r") := by
  funext n; rw [Bool.eq_iff_iff]; simp [Step.selects, t]; exact ⟨of_decide_eq_true, decide_eq_true⟩

theorem follow_rows (sets : List Node) : follow [t c!"r"] sets = sets.flatMap rowsIn := by
  simp only [follow, selects_r]; rfl

theorem Regular.length {sets : List Node} {nb nk c : Nat} (h : Regular sets nb nk c) : (sets.flatMap rowsIn).length = nk * nb := by
  rw [flatMap_length fun s hs => (h.2 s hs).1, h.1]

theorem Regular.allPrint {sets : List Node} {nb nk c : Nat} (h : Regular sets nb nk c) : AllPrint c (sets.flatMap rowsIn) := by
  intro e he
  obtain ⟨s, hs, he⟩ := List.mem_flatMap.1 he
  exact (h.2 s hs).2 e he

/-- The numbers of one spin, by k-point and band. -/
theorem Regular.blocks {sets : List Node} {nb nk c : Nat} (h : Regular sets nb nk c) (hk : 0 < nk) {rows : Table}
    (hr : List.Forall₂ (fun e r => Prints e r ∧ r.length = c) (sets.flatMap rowsIn) rows) :
    split nk rows = .ok (chunks nb nk rows) ∧ Shape nk nb (chunks nb nk rows) ∧ (∀ r ∈ chunks nb nk rows, ∀ x ∈ r, x.length = c) ∧
    ∀ k b, k < nk → b < nb → ∃ row, BandRow sets k b row ∧ at2 (chunks nb nk rows) k b = some row := by
  have hl : rows.length = nk * nb := by rw [← hr.length_eq, h.length]
  refine ⟨split_of_length hk hl, chunks_shape hl, ?_, ?_⟩
  · intro r hr' x hx
    obtain ⟨i, _, rfl⟩ := List.mem_map.1 hr'
    have hx := List.mem_of_mem_drop (List.mem_of_mem_take hx)
    obtain ⟨j, hj⟩ := List.mem_iff_getElem?.1 hx
    obtain ⟨hj1, rfl⟩ := List.getElem?_eq_some_iff.1 hj
    exact (hr.get (by rw [hr.length_eq]; exact hj1) hj1).2
  · intro k b hk hb
    rw [at2_chunks hk hb]
    have hlt : k * nb + b < rows.length := by
      rw [hl]
      calc k * nb + b < k * nb + nb := by omega
        _ = (k + 1) * nb := by rw [Nat.add_mul]; omega
        _ ≤ nk * nb := Nat.mul_le_mul_right _ hk
    have hlt' : k * nb + b < (sets.flatMap rowsIn).length := by rw [hr.length_eq]; exact hlt
    refine ⟨rows[k * nb + b], ?_, List.getElem?_eq_getElem hlt⟩
    have hg := flatMap_get (f := rowsIn) (l := sets) (fun s hs => (h.2 s hs).1) (k := k) hb
    rw [List.getElem?_eq_getElem hlt'] at hg
    obtain ⟨s, hs, he⟩ := Option.bind_eq_some_iff.1 hg.symm
    exact ⟨s, _, hs, he, (hr.get hlt' hlt).1⟩

/-- The order of bands and k-points. -/
theorem bandFirst_placed {α : Type} {kbb : Bool} {nb nk : Nat} {R : Nat → Nat → α → Prop} {a : List (List α)} (hs : Shape nk nb a)
    (h : ∀ k b, k < nk → b < nb → ∃ x, R k b x ∧ at2 a k b = some x) : Placed kbb nb nk R (bandFirst kbb nb a) := by
  unfold Placed bandFirst
  cases kbb with
  | true => exact ⟨hs, fun b k hb hk => h k b hk hb⟩
  | false =>
    refine ⟨hs.swap, fun b k hb hk => ?_⟩
    obtain ⟨x, hx, ha⟩ := h k b hk hb
    exact ⟨x, hx, by simp only [Bool.false_eq_true, if_false]; rw [at2_swap hs hb, ha]⟩

theorem bandFirst_mem {α : Type} {kbb : Bool} {nb : Nat} {a : List (List α)} {r : List α} {x : α} (hr : r ∈ bandFirst kbb nb a) (hx : x ∈ r) :
    ∃ r' ∈ a, x ∈ r' := by
  unfold bandFirst at hr
  cases kbb with
  | true => exact ⟨r, hr, hx⟩
  | false =>
    simp only [Bool.false_eq_true, if_false, swap] at hr
    obtain ⟨j, _, rfl⟩ := List.mem_map.1 hr
    obtain ⟨r', hr', hx⟩ := List.mem_filterMap.1 hx
    exact ⟨r', hr', List.mem_of_getElem? hx⟩

theorem Placed.column {kbb : Bool} {nb nk w c : Nat} {sets : List Node} {a : List (List (List Rat))} (h : Placed kbb nb nk (BandRow sets) a)
    (hw : ∀ r ∈ a, ∀ x ∈ r, x.length = w) (hc : c < w) : Placed kbb nb nk (BandNumber c sets) (column c a) := by
  obtain ⟨hs, h⟩ := h
  cases kbb with
  | true =>
    obtain ⟨h1, h2⟩ := column_spec hs hw hc
    refine ⟨h1, fun b k hb hk => ?_⟩
    obtain ⟨x, hx, ha⟩ := h b k hb hk
    simp only [if_true] at ha ⊢
    have hl : x.length = w := by
      unfold at2 at ha
      obtain ⟨r, hr, ha⟩ := Option.bind_eq_some_iff.1 ha
      exact hw r (List.mem_of_getElem? hr) x (List.mem_of_getElem? ha)
    refine ⟨x[c]'(by omega), ⟨x, hx, List.getElem?_eq_getElem _⟩, ?_⟩
    rw [h2, ha]
    simp [List.getElem?_eq_getElem (show c < x.length by omega)]
  | false =>
    obtain ⟨h1, h2⟩ := column_spec hs hw hc
    refine ⟨h1, fun b k hb hk => ?_⟩
    obtain ⟨x, hx, ha⟩ := h b k hb hk
    simp only [Bool.false_eq_true, if_false] at ha ⊢
    have hl : x.length = w := by
      unfold at2 at ha
      obtain ⟨r, hr, ha⟩ := Option.bind_eq_some_iff.1 ha
      exact hw r (List.mem_of_getElem? hr) x (List.mem_of_getElem? ha)
    refine ⟨x[c]'(by omega), ⟨x, hx, List.getElem?_eq_getElem _⟩, ?_⟩
    rw [h2, ha]
    simp [List.getElem?_eq_getElem (show c < x.length by omega)]

/-- The values of one spin as the code computes them. -/
theorem eigenRows_ok {sets : List Node} {nb nk c : Nat} (h : Regular sets nb nk c) (hk : 0 < nk) (hc : 0 < c) (kbb : Bool) :
    ∃ a, eigenRows c nk (sets.flatMap rowsIn) = .ok a ∧ Placed kbb nb nk (BandRow sets) (bandFirst kbb nb a) ∧
      ∀ r ∈ bandFirst kbb nb a, ∀ x ∈ r, x.length = c := by
  obtain ⟨rows, hr⟩ := h.allPrint.rows
  obtain ⟨h1, h2, h3, h4⟩ := h.blocks hk hr
  refine ⟨chunks nb nk rows, ?_, bandFirst_placed h2 h4, ?_⟩
  · unfold eigenRows
    by_cases hc1 : c > 1
    · rw [if_pos hc1, convert2D_rows hr, Res.ok_bind, h1]
    · have : c = 1 := by omega
      subst this
      obtain ⟨xs, hx, e⟩ := convert1D_rows hr
      rw [if_neg hc1, hx, Res.ok_bind, Res.ok_bind, ← e, h1]
  · intro r hr x hx
    obtain ⟨r', hr', hx⟩ := bandFirst_mem hr hx
    exact h3 r' hr' x hx

theorem first_row {sets : List Node} {nb nk c : Nat} (h : Regular sets nb nk c) (hk : 0 < nk) (hb : 0 < nb) :
    ∃ e s, idx (sets.flatMap rowsIn) 0 = .ok e ∧ e.text = some s ∧ (words s).length = c := by
  have hl := h.length
  cases hr : sets.flatMap rowsIn with
  | nil => rw [hr] at hl; have := Nat.mul_pos hk hb; simp at hl; omega
  | cons e es =>
    obtain ⟨xs, hx, hlen⟩ := h.allPrint e (by rw [hr]; simp)
    obtain ⟨s, hs, hf⟩ := id hx
    exact ⟨e, s, rfl, hs, by rw [hx.length hs, hlen]⟩

/-- What the extraction yields for regular rows. -/
theorem extractEigenvalues_regular {p : Params} {kbb : Bool} {s1 s2 : List Node} {nb nk c : Nat} {i : Int} (h1 : Regular s1 nb nk c)
    (h2 : s2 = [] ∨ Regular s2 nb nk c) (hb : 0 < nb) (hk : 0 < nk) (hc : 0 < c) (hi : p.ispin = some i) (hn : p.nbands = some (nb : Int)) :
    ∃ e o, extractEigenvalues p kbb (s1.flatMap rowsIn) (nonEmpty (s2.flatMap rowsIn)) nk = .ok (e, o) ∧
      (∀ (sets : Str → List Node), sets c!"spin 1" = s1 → sets c!"spin 2" = s2 →
        BySpin (fun spin a => Placed kbb nb nk (BandNumber 0 (sets spin)) a) (s2 = []) e ∧
        (c = 1 → o = none) ∧
        (1 < c → ∃ o', o = some o' ∧ BySpin (fun spin a => Placed kbb nb nk (BandNumber 1 (sets spin)) a) (s2 = []) o')) := by
  obtain ⟨a1, ha1, hp1, hw1⟩ := eigenRows_ok h1 hk hc kbb
  obtain ⟨e0, s0, he0, hs0, hc0⟩ := first_row h1 hk hb
  unfold extractEigenvalues
  simp only [hi, hn]
  rw [if_neg (by rw [h1.length]; push_cast; rw [Int.mul_comm]; simp), he0]
  simp only [Res.ok_bind, hs0, hc0, ha1]
  by_cases hs2 : s2 = []
  · subst hs2
    simp only [List.flatMap_nil, nonEmpty, List.isEmpty_nil, if_true, Int.toNat_natCast]
    refine ⟨_, _, rfl, fun sets hs1 _ => ⟨⟨by simp, ?_⟩, fun h => by rw [if_neg (by omega)], fun h => ⟨.total _, by rw [if_pos h], by simp, ?_⟩⟩⟩
    · show Placed kbb nb nk (BandNumber 0 (sets c!"spin 1")) _
      rw [hs1]; exact hp1.column hw1 hc
    · show Placed kbb nb nk (BandNumber 1 (sets c!"spin 1")) _
      rw [hs1]; exact hp1.column hw1 h
  · have h2 := h2.resolve_left hs2
    obtain ⟨a2, ha2, hp2, hw2⟩ := eigenRows_ok h2 hk hc kbb
    have hne : nonEmpty (s2.flatMap rowsIn) = some (s2.flatMap rowsIn) := by
      unfold nonEmpty
      rw [if_neg]
      intro hh
      have := h2.length
      rw [List.isEmpty_iff.1 hh] at this
      have := Nat.mul_pos hk hb
      simp at *; omega
    rw [hne]
    simp only
    rw [if_neg (by rw [h2.length]; push_cast; rw [Int.mul_comm]; simp), ha2]
    simp only [Res.ok_bind, Int.toNat_natCast]
    refine ⟨_, _, rfl, fun sets hs1 hs2' => ⟨⟨hs2, ?_, ?_⟩, fun h => by rw [if_neg (by omega)], fun h => ⟨.updown _ _, by rw [if_pos h], hs2, ?_, ?_⟩⟩⟩
    · show Placed kbb nb nk (BandNumber 0 (sets c!"spin 1")) _
      rw [hs1]; exact hp1.column hw1 hc
    · show Placed kbb nb nk (BandNumber 0 (sets c!"spin 2")) _
      rw [hs2']; exact hp2.column hw2 hc
    · show Placed kbb nb nk (BandNumber 1 (sets c!"spin 1")) _
      rw [hs1]; exact hp1.column hw1 h
    · show Placed kbb nb nk (BandNumber 1 (sets c!"spin 2")) _
      rw [hs2']; exact hp2.column hw2 h

/-! ### C47 -/

theorem eigen_path (root : Node) (spin : Str) :
    findAny root (t c!"calculation") [t c!"eigenvalues", t c!"array", t c!"set", tc c!"set" spin, t c!"set", t c!"r"] =
      (eigenSets root spin).flatMap rowsIn := by
  rw [← follow_rows, eigenSets, ← findAny_append]; rfl

theorem fetchEigenvalues_eq (root : Node) (p : Params) (kbb : Bool) (ks : Option Table) :
    fetchEigenvalues root p kbb ks = if (eigenSets root c!"spin 1").flatMap rowsIn = [] then .ok (none, none) else match ks with
      | none => .raise .typeError
      | some ks => extractEigenvalues p kbb ((eigenSets root c!"spin 1").flatMap rowsIn) (nonEmpty ((eigenSets root c!"spin 2").flatMap rowsIn)) ks.length
          >>= fun r => .ok (some r.1, r.2) := by
  unfold fetchEigenvalues
  simp only [eigen_path]
  cases (eigenSets root c!"spin 1").flatMap rowsIn <;> rfl

theorem Regular.rows_ne {sets : List Node} {nb nk c : Nat} (h : Regular sets nb nk c) (hb : 0 < nb) (hk : 0 < nk) : sets.flatMap rowsIn ≠ [] := by
  intro e
  have h1 := h.length
  have h2 := Nat.mul_pos hk hb
  rw [e] at h1; simp at h1; omega

/-- The rules for the sizes, for every result of the extraction. -/
theorem extractEigenvalues_sizes {p : Params} {kbb : Bool} {s1 : List Node} {s2 : Option (List Node)} {nk : Nat} {r : Spins Table × Option (Spins Table)}
    (h : extractEigenvalues p kbb s1 s2 nk = .ok r) : (∃ i, p.ispin = some i) ∧ ∃ nb : Int, p.nbands = some nb ∧ (s1.length : Int) = nb * nk ∧
      ∀ l, s2 = some l → (l.length : Int) = nb * nk := by
  unfold extractEigenvalues at h
  cases hi : p.ispin with
  | none => rw [hi] at h; cases h
  | some i =>
    cases hn : p.nbands with
    | none => rw [hi, hn] at h; cases h
    | some nb =>
      rw [hi, hn] at h
      simp only at h
      refine ⟨⟨i, rfl⟩, nb, rfl, ?_, ?_⟩
      · by_contra hc; rw [if_pos hc] at h; cases h
      · intro l hl
        subst hl
        split at h
        · cases h
        · obtain ⟨e, _, h⟩ := Res.bind_eq_ok.1 h
          split at h
          · cases h
          · obtain ⟨d1, _, h⟩ := Res.bind_eq_ok.1 h
            simp only at h
            by_contra hc
            rw [if_pos hc] at h; cases h

/-- **C47** for every document that is accepted and whose eigenvalues are written as blocks of `nb` rows of `c` numbers for each of `nk` k-points:
`nb` is `NBANDS`, `nk` the number of k-points, and the arrays hold the first and the second number of each row at the place of its
band and k-point, for one spin under `total` and for two under `up` and `down`. With one number there are no occupancies. -/
theorem C47_eigenvalues (root : Node) (kbb all : Bool) (d : Data) (h : parsew root kbb all = .ok d) (nb nk c : Nat) (hb : 0 < nb) (hk : 0 < nk) (hc : 0 < c)
    (h1 : Regular (eigenSets root c!"spin 1") nb nk c) (h2 : eigenSets root c!"spin 2" = [] ∨ Regular (eigenSets root c!"spin 2") nb nk c)
    (hn : d.params.nbands = some (nb : Int)) :
    (∃ ks, d.kpoints = some ks ∧ ks.length = nk) ∧
    (∃ e, d.eigenvalues = some e ∧
      BySpin (fun spin a => Placed kbb nb nk (BandNumber 0 (eigenSets root spin)) a) (eigenSets root c!"spin 2" = []) e) ∧
    (c = 1 → d.occupancies = none) ∧
    (1 < c → ∃ o, d.occupancies = some o ∧
      BySpin (fun spin a => Placed kbb nb nk (BandNumber 1 (eigenSets root spin)) a) (eigenSets root c!"spin 2" = []) o) := by
  have he := (parts h).eigen
  rw [fetchEigenvalues_eq, if_neg (h1.rows_ne hb hk)] at he
  cases hks : d.kpoints with
  | none => rw [hks] at he; cases he
  | some ks =>
    rw [hks] at he
    obtain ⟨r, hr, he⟩ := Res.bind_eq_ok.1 he
    obtain ⟨⟨i, hi⟩, nb', hn', hl, _⟩ := extractEigenvalues_sizes hr
    have hkk : ks.length = nk := by
      rw [hn] at hn'; injection hn' with hn'; subst hn'
      rw [h1.length] at hl
      have : nk * nb = nb * ks.length := by exact_mod_cast hl
      rw [Nat.mul_comm] at this
      exact (Nat.eq_of_mul_eq_mul_left hb this).symm
    rw [hkk] at hr
    obtain ⟨e, o, heo, hsp⟩ := extractEigenvalues_regular (kbb := kbb) h1 h2 hb hk hc hi hn
    rw [heo] at hr
    injection hr with hr
    subst hr
    injection he with he
    injection he with he1 he2
    obtain ⟨g1, g2, g3⟩ := hsp (eigenSets root) rfl rfl
    rw [← he1, ← he2]
    exact ⟨⟨ks, rfl, hkk⟩, ⟨e, rfl, g1⟩, g2, g3⟩

/-- C47: such eigenvalues are accepted if `ISPIN` is known. -/
theorem C47_accepts (root : Node) (kbb : Bool) (p : Params) (ks : Table) (nb nk c : Nat) (hb : 0 < nb) (hk : 0 < nk) (hc : 0 < c)
    (h1 : Regular (eigenSets root c!"spin 1") nb nk c) (h2 : eigenSets root c!"spin 2" = [] ∨ Regular (eigenSets root c!"spin 2") nb nk c)
    (hi : p.ispin ≠ none) (hn : p.nbands = some (nb : Int)) (hks : ks.length = nk) : ∃ r, fetchEigenvalues root p kbb (some ks) = .ok r := by
  obtain ⟨i, hi⟩ := Option.ne_none_iff_exists'.1 hi
  obtain ⟨e, o, heo, _⟩ := extractEigenvalues_regular (kbb := kbb) h1 h2 hb hk hc hi hn
  rw [fetchEigenvalues_eq, if_neg (h1.rows_ne hb hk)]
  simp only [hks, heo]
  exact ⟨_, rfl⟩

/-- C47, wrong numbers: if there are rows for the first spin, the document is only accepted if each spin has `NBANDS` times the number of k-points
rows, whatever their arrangement; for the first spin the exit code is 505 (unless `ISPIN` or `NBANDS` are missing, which are 502 and 503). -/
theorem C47_counts (root : Node) (p : Params) (kbb : Bool) (ks : Table) (hne : (eigenSets root c!"spin 1").flatMap rowsIn ≠ []) :
    (∀ r, fetchEigenvalues root p kbb (some ks) = .ok r → ∃ nb : Int, p.nbands = some nb ∧
      (((eigenSets root c!"spin 1").flatMap rowsIn).length : Int) = nb * ks.length ∧
      ((eigenSets root c!"spin 2").flatMap rowsIn ≠ [] → (((eigenSets root c!"spin 2").flatMap rowsIn).length : Int) = nb * ks.length)) ∧
    (p.ispin = none → fetchEigenvalues root p kbb (some ks) = .exit 502) ∧
    (p.ispin ≠ none → p.nbands = none → fetchEigenvalues root p kbb (some ks) = .exit 503) ∧
    (∀ nb : Int, p.ispin ≠ none → p.nbands = some nb → (((eigenSets root c!"spin 1").flatMap rowsIn).length : Int) ≠ nb * ks.length →
      fetchEigenvalues root p kbb (some ks) = .exit 505) := by
  rw [fetchEigenvalues_eq, if_neg hne]
  refine ⟨?_, ?_, ?_, ?_⟩
  · intro r hr
    obtain ⟨x, hx, _⟩ := Res.bind_eq_ok.1 hr
    obtain ⟨_, nb, hn, h1, h2⟩ := extractEigenvalues_sizes hx
    refine ⟨nb, hn, h1, fun hne2 => h2 _ ?_⟩
    unfold nonEmpty
    rw [if_neg (by simpa using hne2)]
  · intro hi; simp only [extractEigenvalues, hi]; rfl
  · intro hi hn
    obtain ⟨i, hi⟩ := Option.ne_none_iff_exists'.1 hi
    simp only [extractEigenvalues, hi, hn]; rfl
  · intro nb hi hn hl
    obtain ⟨i, hi⟩ := Option.ne_none_iff_exists'.1 hi
    simp only [extractEigenvalues, hi, hn]
    rw [if_pos hl]; rfl

/-- C47, no eigenvalues: both results are absent. -/
theorem C47_absent (root : Node) (kbb all : Bool) (d : Data) (h : parsew root kbb all = .ok d) (h1 : (eigenSets root c!"spin 1").flatMap rowsIn = []) :
    d.eigenvalues = none ∧ d.occupancies = none := by
  have he := (parts h).eigen
  rw [fetchEigenvalues_eq, if_pos h1] at he
  injection he with he
  injection he with he1 he2
  exact ⟨he1.symm, he2.symm⟩

/-! ### an example -/

/-- An element with text. -/
def leaf (tag text : Str) : Node := .node tag [] (some text) []
/-- An element with children. -/
def box (tag : Str) (cs : List Node) : Node := .node tag [] (some c!"\n") cs
/-- An element with `name` and children. -/
def named (tag name : Str) (cs : List Node) : Node := .node tag [(c!"name", name)] (some c!"\n") cs
/-- An element with `name` and text. -/
def item' (tag name text : Str) : Node := .node tag [(c!"name", name)] (some text) []
/-- An element with `comment` and children. -/
def commented (tag comment : Str) (cs : List Node) : Node := .node tag [(c!"comment", comment)] (some c!"\n") cs

/-- The parameters of an example. -/
def sampleParams (nbands ispin : Str) : Node := box c!"parameters" [named c!"separator" c!"electronic"
  [item' c!"i" c!"NBANDS" nbands, named c!"separator" c!"electronic spin" [item' c!"i" c!"ISPIN" ispin]]]
/-- The k-points of an example. -/
def sampleKpoints : Node := box c!"kpoints" [named c!"varray" c!"kpointlist" [leaf c!"v" c!" 0.0 0.0 0.0 ", leaf c!"v" c!" 0.5 0.0 0.0 "]]
/-- Two k-points with two bands. -/
def sampleEigen : Node := box c!"eigenvalues" [box c!"array" [box c!"set" [commented c!"set" c!"spin 1"
  [commented c!"set" c!"kpoint 1" [leaf c!"r" c!" -1.0 1.0 ", leaf c!"r" c!" 2.5 0.0 "],
   commented c!"set" c!"kpoint 2" [leaf c!"r" c!" -1.5 1.0 ", leaf c!"r" c!" 3.5 0.25 "]]]]]
/-- A document. -/
def sampleDoc : Node := box c!"modeling" [sampleKpoints, sampleParams c!" 2 " c!" 1 ", box c!"calculation" [sampleEigen]]

theorem prints_of {text : Str} {tag : Str} {xs : List Rat} (h1 : (words text).map pyFloatRat = xs.map some) (h2 : ∀ w ∈ words text, '_' ∉ w) :
    Prints (leaf tag text) xs := by
  refine ⟨text, rfl, ?_⟩
  generalize words text = ws at h1 h2
  induction ws generalizing xs with
  | nil => cases xs with
    | nil => exact .nil
    | cons x xs => cases h1
  | cons w ws ih => cases xs with
    | nil => cases h1
    | cons x xs =>
      simp only [List.map_cons, List.cons.injEq] at h1
      exact .cons ⟨h1.1, h2 w (by simp)⟩ (ih h1.2 fun w hw => h2 w (by simp [hw]))

/-- The hypotheses of `C47_eigenvalues` are met. -/
example : ∃ d, parsew sampleDoc false true = .ok d ∧ d.params.nbands = some 2 ∧ Regular (eigenSets sampleDoc c!"spin 1") 2 2 2 ∧
    eigenSets sampleDoc c!"spin 2" = [] ∧ d.eigenvalues = some (.total [[-1, -3/2], [5/2, 7/2]]) ∧
    d.occupancies = some (.total [[1, 1], [0, 1/4]]) := by
  refine ⟨_, rfl, by decide +kernel, ?_, rfl, by decide +kernel, by decide +kernel⟩
  refine ⟨rfl, fun s hs => ?_⟩
  have : s = commented c!"set" c!"kpoint 1" [leaf c!"r" c!" -1.0 1.0 ", leaf c!"r" c!" 2.5 0.0 "] ∨
    s = commented c!"set" c!"kpoint 2" [leaf c!"r" c!" -1.5 1.0 ", leaf c!"r" c!" 3.5 0.25 "] := by
    have e : eigenSets sampleDoc c!"spin 1" = [commented c!"set" c!"kpoint 1" [leaf c!"r" c!" -1.0 1.0 ", leaf c!"r" c!" 2.5 0.0 "],
      commented c!"set" c!"kpoint 2" [leaf c!"r" c!" -1.5 1.0 ", leaf c!"r" c!" 3.5 0.25 "]] := rfl
    rw [e] at hs; simpa using hs
  rcases this with rfl | rfl
  · refine ⟨rfl, fun e he => ?_⟩
    have : e = leaf c!"r" c!" -1.0 1.0 " ∨ e = leaf c!"r" c!" 2.5 0.0 " := by
      change e ∈ [leaf c!"r" c!" -1.0 1.0 ", leaf c!"r" c!" 2.5 0.0 "] at he; simpa using he
    rcases this with rfl | rfl
    · exact ⟨[-1, 1], prints_of (by decide +kernel) (by decide +kernel), rfl⟩
    · exact ⟨[5/2, 0], prints_of (by decide +kernel) (by decide +kernel), rfl⟩
  · refine ⟨rfl, fun e he => ?_⟩
    have : e = leaf c!"r" c!" -1.5 1.0 " ∨ e = leaf c!"r" c!" 3.5 0.25 " := by
      change e ∈ [leaf c!"r" c!" -1.5 1.0 ", leaf c!"r" c!" 3.5 0.25 "] at he; simpa using he
    rcases this with rfl | rfl
    · exact ⟨[-3/2, 1], prints_of (by decide +kernel) (by decide +kernel), rfl⟩
    · exact ⟨[7/2, 1/4], prints_of (by decide +kernel) (by decide +kernel), rfl⟩

/-- Eigenvalues in two calculations (ionic steps) are taken together and refused. -/
theorem C47_violation_steps : parsew (box c!"modeling" [sampleKpoints, sampleParams c!" 2 " c!" 1 ", box c!"calculation" [sampleEigen],
    box c!"calculation" [sampleEigen]]) false true = .exit 505 := by decide +kernel

/-- C72 is false for rows: a row with three numbers where the first row has two is stored as zeros, silently. -/
theorem C72_violation_columns : ∃ d, parsew (box c!"modeling" [sampleKpoints, sampleParams c!" 1 " c!" 1 ",
    box c!"calculation" [box c!"eigenvalues" [box c!"array" [box c!"set" [commented c!"set" c!"spin 1"
      [commented c!"set" c!"kpoint 1" [leaf c!"r" c!" -1.0 1.0 "], commented c!"set" c!"kpoint 2" [leaf c!"r" c!" 2.5 1.0 3.0 "]]]]]]]) false true = .ok d ∧
    d.eigenvalues = some (.total [[-1, 0]]) ∧ d.occupancies = some (.total [[1, 0]]) := ⟨_, rfl, by decide +kernel, by decide +kernel⟩

/-! ### C73: the eigenvalues and velocities on other k-points -/

/-- The `set` elements of the k-points for one spin in nested (interpolated) eigenvalues. -/
def specialSets (root : Node) (spin : Str) : List Node :=
  findAny root (t c!"calculation") [t c!"eigenvalues", t c!"eigenvalues", t c!"array", t c!"set", tc c!"set" spin, t c!"set"]

/-- The `set` elements of the k-points for one spin in the eigenvelocities. -/
def velocitySets (root : Node) (spin : Str) : List Node :=
  findAny root (t c!"calculation") [t c!"eigenvelocities", t c!"eigenvalues", t c!"array", t c!"set", tc c!"set" spin, t c!"set"]

/-- The `v` elements of a list of k-points in the element `inside` of the calculations. -/
def specialList (root : Node) (inside name : Str) : List Node :=
  findAny root (t c!"calculation") [t inside, t c!"kpoints", tn c!"varray" name, t c!"v"]

theorem special_path (root : Node) (spin : Str) :
    findAny root (t c!"calculation") [t c!"eigenvalues", t c!"eigenvalues", t c!"array", t c!"set", tc c!"set" spin, t c!"set", t c!"r"] =
      (specialSets root spin).flatMap rowsIn := by
  rw [← follow_rows, specialSets, ← findAny_append]; rfl

theorem velocity_path (root : Node) (spin : Str) :
    findAny root (t c!"calculation") [t c!"eigenvelocities", t c!"eigenvalues", t c!"array", t c!"set", tc c!"set" spin, t c!"set", t c!"r"] =
      (velocitySets root spin).flatMap rowsIn := by
  rw [← follow_rows, velocitySets, ← findAny_append]; rfl

theorem opt_ok {α : Type} {f : List Node → Res α} {es : List Node} {r : Option α} (h : opt f es = .ok r) (hne : es ≠ []) :
    ∃ x, r = some x ∧ f es = .ok x := by
  unfold opt at h
  cases es with
  | nil => exact absurd rfl hne
  | cons e es =>
    obtain ⟨x, hx, h⟩ := Res.bind_eq_ok.1 h
    injection h with h
    exact ⟨x, h.symm, hx⟩

theorem opt_nil {α : Type} {f : List Node → Res α} : opt f [] = .ok none := rfl

/-- **C73** for interpolated eigenvalues: in an accepted document they stand at their places, as in C47, where the k-points are those
given with them. -/
theorem C73_interpolated (root : Node) (kbb all : Bool) (d : Data) (h : parsew root kbb all = .ok d) (nb nk c : Nat) (hb : 0 < nb) (hk : 0 < nk) (hc : 0 < c)
    (h1 : Regular (specialSets root c!"spin 1") nb nk c) (h2 : specialSets root c!"spin 2" = [] ∨ Regular (specialSets root c!"spin 2") nb nk c)
    (hn : d.params.nbands = some (nb : Int)) :
    (specialList root c!"eigenvalues" c!"kpointlist").length = nk ∧
    ∃ e, d.eigenvaluesSpecific = some e ∧
      BySpin (fun spin a => Placed kbb nb nk (BandNumber 0 (specialSets root spin)) a) (specialSets root c!"spin 2" = []) e := by
  obtain ⟨s, hs, hd⟩ := (parts h).special
  unfold fetchEigenvaluesSpecific at hs
  simp only [special_path] at hs
  have hne := h1.rows_ne hb hk
  generalize hrows : (specialSets root c!"spin 1").flatMap rowsIn = rows at hs hne
  cases rows with
  | nil => exact absurd rfl hne
  | cons r0 rs =>
    simp only at hs
    obtain ⟨ks, hks, hs⟩ := Res.bind_eq_ok.1 hs
    obtain ⟨ws, _, hs⟩ := Res.bind_eq_ok.1 hs
    change opt (fun e => convert2D e 3) (specialList root c!"eigenvalues" c!"kpointlist") = .ok ks at hks
    cases ks with
    | none => cases hs
    | some k =>
      simp only at hs
      obtain ⟨r, hr, hs⟩ := Res.bind_eq_ok.1 hs
      injection hs with hs
      rw [← hrows] at hr
      obtain ⟨⟨i, hi⟩, nb', hn', hl, _⟩ := extractEigenvalues_sizes hr
      have hlen : (specialList root c!"eigenvalues" c!"kpointlist").length = k.length := by
        obtain ⟨x, hx, hf⟩ := opt_ok hks (by intro e; rw [e, opt_nil] at hks; cases hks)
        injection hx with hx; subst hx
        exact (convert2D_shape hf).1.symm
      have hkk : k.length = nk := by
        rw [hn] at hn'; injection hn' with hn'; subst hn'
        rw [h1.length] at hl
        have : nk * nb = nb * k.length := by exact_mod_cast hl
        rw [Nat.mul_comm] at this
        exact (Nat.eq_of_mul_eq_mul_left hb this).symm
      rw [hkk] at hr
      obtain ⟨e, o, heo, hsp⟩ := extractEigenvalues_regular (kbb := kbb) h1 h2 hb hk hc hi hn
      rw [heo] at hr
      injection hr with hr
      subst hr
      refine ⟨hlen.trans hkk, e, by rw [hd, ← hs]; rfl, (hsp (specialSets root) rfl rfl).1⟩

theorem convert_split {sets : List Node} {nb nk : Nat} (h : Regular sets nb nk 4) (hk : 0 < nk) (kbb : Bool) :
    ∃ rows a, convert2D (sets.flatMap rowsIn) 4 = .ok rows ∧ split nk rows = .ok a ∧ Placed kbb nb nk (BandRow sets) (bandFirst kbb nb a) := by
  obtain ⟨rows, hr⟩ := h.allPrint.rows
  obtain ⟨g1, g2, _, g4⟩ := h.blocks hk hr
  exact ⟨rows, _, convert2D_rows hr, g1, bandFirst_placed g2 g4⟩

theorem extractEigenvelocities_sizes {p : Params} {kbb : Bool} {s1 : List Node} {s2 : Option (List Node)} {nk : Nat} {r : Spins (List Table)}
    (h : extractEigenvelocities p kbb s1 s2 nk = .ok r) : (∃ i, p.ispin = some i) ∧ ∃ nb : Int, p.nbands = some nb ∧ (s1.length : Int) = nb * nk := by
  unfold extractEigenvelocities at h
  cases hi : p.ispin with
  | none => rw [hi] at h; cases h
  | some i =>
    cases hn : p.nbands with
    | none => rw [hi, hn] at h; cases h
    | some nb =>
      rw [hi, hn] at h
      simp only at h
      refine ⟨⟨i, rfl⟩, nb, rfl, ?_⟩
      by_contra hc; rw [if_pos hc] at h; cases h

theorem extractEigenvelocities_regular {p : Params} {kbb : Bool} {s1 s2 : List Node} {nb nk : Nat} {i : Int} (h1 : Regular s1 nb nk 4)
    (h2 : s2 = [] ∨ Regular s2 nb nk 4) (hb : 0 < nb) (hk : 0 < nk) (hi : p.ispin = some i) (hn : p.nbands = some (nb : Int)) :
    ∃ e, extractEigenvelocities p kbb (s1.flatMap rowsIn) (nonEmpty (s2.flatMap rowsIn)) nk = .ok e ∧
      ∀ (sets : Str → List Node), sets c!"spin 1" = s1 → sets c!"spin 2" = s2 →
        BySpin (fun spin a => Placed kbb nb nk (BandRow (sets spin)) a) (s2 = []) e := by
  obtain ⟨r1, a1, hc1, ha1, hp1⟩ := convert_split h1 hk kbb
  unfold extractEigenvelocities
  simp only [hi, hn]
  rw [if_neg (by rw [h1.length]; push_cast; rw [Int.mul_comm]; simp), hc1]
  simp only [Res.ok_bind, ha1]
  by_cases hs2 : s2 = []
  · subst hs2
    simp only [List.flatMap_nil, nonEmpty, List.isEmpty_nil, if_true, Int.toNat_natCast]
    refine ⟨_, rfl, fun sets hs1 _ => ⟨by simp, ?_⟩⟩
    show Placed kbb nb nk (BandRow (sets c!"spin 1")) _
    rw [hs1]; exact hp1
  · have h2 := h2.resolve_left hs2
    obtain ⟨r2, a2, hc2, ha2, hp2⟩ := convert_split h2 hk kbb
    have hne : nonEmpty (s2.flatMap rowsIn) = some (s2.flatMap rowsIn) := by
      unfold nonEmpty
      rw [if_neg (by simpa using h2.rows_ne hb hk)]
    rw [hne]
    simp only
    rw [if_neg (by rw [h2.length]; push_cast; rw [Int.mul_comm]; simp), hc2]
    simp only [Res.ok_bind, ha2, Int.toNat_natCast]
    refine ⟨_, rfl, fun sets hs1 hs2' => ⟨hs2, ?_, ?_⟩⟩
    · show Placed kbb nb nk (BandRow (sets c!"spin 1")) _
      rw [hs1]; exact hp1
    · show Placed kbb nb nk (BandRow (sets c!"spin 2")) _
      rw [hs2']; exact hp2

/-- **C73** for eigenvelocities: the four numbers printed for band `b` and k-point `k` stand at their place. -/
theorem C73_velocities (root : Node) (kbb all : Bool) (d : Data) (h : parsew root kbb all = .ok d) (nb nk : Nat) (hb : 0 < nb) (hk : 0 < nk)
    (h1 : Regular (velocitySets root c!"spin 1") nb nk 4) (h2 : velocitySets root c!"spin 2" = [] ∨ Regular (velocitySets root c!"spin 2") nb nk 4)
    (hn : d.params.nbands = some (nb : Int)) :
    (specialList root c!"eigenvelocities" c!"kpointlist").length = nk ∧
    ∃ e, d.eigenvelocities = some e ∧
      BySpin (fun spin a => Placed kbb nb nk (BandRow (velocitySets root spin)) a) (velocitySets root c!"spin 2" = []) e := by
  obtain ⟨s, hs, hd⟩ := (parts h).velocities
  unfold fetchEigenvelocities at hs
  simp only [velocity_path] at hs
  have hne := h1.rows_ne hb hk
  generalize hrows : (velocitySets root c!"spin 1").flatMap rowsIn = rows at hs hne
  cases rows with
  | nil => exact absurd rfl hne
  | cons r0 rs =>
    simp only at hs
    obtain ⟨ks, hks, hs⟩ := Res.bind_eq_ok.1 hs
    obtain ⟨ws, _, hs⟩ := Res.bind_eq_ok.1 hs
    change opt (fun e => convert2D e 3) (specialList root c!"eigenvelocities" c!"kpointlist") = .ok ks at hks
    cases ks with
    | none => cases hs
    | some k =>
      simp only at hs
      obtain ⟨r, hr, hs⟩ := Res.bind_eq_ok.1 hs
      injection hs with hs
      rw [← hrows] at hr
      obtain ⟨⟨i, hi⟩, nb', hn', hl⟩ := extractEigenvelocities_sizes hr
      have hlen : (specialList root c!"eigenvelocities" c!"kpointlist").length = k.length := by
        obtain ⟨x, hx, hf⟩ := opt_ok hks (by intro e; rw [e, opt_nil] at hks; cases hks)
        injection hx with hx; subst hx
        exact (convert2D_shape hf).1.symm
      have hkk : k.length = nk := by
        rw [hn] at hn'; injection hn' with hn'; subst hn'
        rw [h1.length] at hl
        have : nk * nb = nb * k.length := by exact_mod_cast hl
        rw [Nat.mul_comm] at this
        exact (Nat.eq_of_mul_eq_mul_left hb this).symm
      rw [hkk] at hr
      obtain ⟨e, heo, hsp⟩ := extractEigenvelocities_regular (kbb := kbb) h1 h2 hb hk hi hn
      rw [heo] at hr
      injection hr with hr
      subst hr
      refine ⟨hlen.trans hkk, e, by rw [hd, ← hs]; rfl, hsp (velocitySets root) rfl rfl⟩

/-- C73: which k-points `get_kpoints_specific` returns: those of the eigenvelocities if there are any, else those of the interpolated
eigenvalues. -/
theorem C73_kpoints (root : Node) (kbb all : Bool) (d : Data) (h : parsew root kbb all = .ok d) :
    ((velocitySets root c!"spin 1").flatMap rowsIn ≠ [] →
      opt (fun e => convert2D e 3) (specialList root c!"eigenvelocities" c!"kpointlist") = .ok d.kpointsSpecific ∧
      opt convert1D (specialList root c!"eigenvelocities" c!"weights") = .ok d.kpointswSpecific) ∧
    ((velocitySets root c!"spin 1").flatMap rowsIn = [] → (specialSets root c!"spin 1").flatMap rowsIn ≠ [] →
      opt (fun e => convert2D e 3) (specialList root c!"eigenvalues" c!"kpointlist") = .ok d.kpointsSpecific ∧
      opt convert1D (specialList root c!"eigenvalues" c!"weights") = .ok d.kpointswSpecific) ∧
    ((velocitySets root c!"spin 1").flatMap rowsIn = [] → (specialSets root c!"spin 1").flatMap rowsIn = [] →
      d.kpointsSpecific = none ∧ d.kpointswSpecific = none) := by
  obtain ⟨vel, spec, hv, hs, e1, e2⟩ : ∃ vel spec, fetchEigenvelocities root d.params kbb = .ok vel ∧ fetchEigenvaluesSpecific root d.params kbb = .ok spec ∧
      d.kpointsSpecific = (specialKpoints vel spec).1 ∧ d.kpointswSpecific = (specialKpoints vel spec).2 := (parts h).grids
  have fv : ((velocitySets root c!"spin 1").flatMap rowsIn = [] → vel = none) ∧ ((velocitySets root c!"spin 1").flatMap rowsIn ≠ [] →
      ∃ v, vel = some v ∧ opt (fun e => convert2D e 3) (specialList root c!"eigenvelocities" c!"kpointlist") = .ok v.kpoints ∧
      opt convert1D (specialList root c!"eigenvelocities" c!"weights") = .ok v.kpointsw) := by
    unfold fetchEigenvelocities at hv
    simp only [velocity_path] at hv
    generalize (velocitySets root c!"spin 1").flatMap rowsIn = rows at hv
    cases rows with
    | nil => injection hv with hv; exact ⟨fun _ => hv.symm, fun h => absurd rfl h⟩
    | cons r0 rs =>
      refine ⟨fun h => (by cases h), fun _ => ?_⟩
      simp only at hv
      obtain ⟨ks, hks, hv⟩ := Res.bind_eq_ok.1 hv
      obtain ⟨ws, hws, hv⟩ := Res.bind_eq_ok.1 hv
      cases ks with
      | none => cases hv
      | some k =>
        obtain ⟨r, _, hv⟩ := Res.bind_eq_ok.1 hv
        injection hv with hv
        exact ⟨_, hv.symm, hks, hws⟩
  have fs : ((specialSets root c!"spin 1").flatMap rowsIn = [] → spec = none) ∧ ((specialSets root c!"spin 1").flatMap rowsIn ≠ [] →
      ∃ v, spec = some v ∧ opt (fun e => convert2D e 3) (specialList root c!"eigenvalues" c!"kpointlist") = .ok v.kpoints ∧
      opt convert1D (specialList root c!"eigenvalues" c!"weights") = .ok v.kpointsw) := by
    unfold fetchEigenvaluesSpecific at hs
    simp only [special_path] at hs
    generalize (specialSets root c!"spin 1").flatMap rowsIn = rows at hs
    cases rows with
    | nil => injection hs with hs; exact ⟨fun _ => hs.symm, fun h => absurd rfl h⟩
    | cons r0 rs =>
      refine ⟨fun h => (by cases h), fun _ => ?_⟩
      simp only at hs
      obtain ⟨ks, hks, hs⟩ := Res.bind_eq_ok.1 hs
      obtain ⟨ws, hws, hs⟩ := Res.bind_eq_ok.1 hs
      cases ks with
      | none => cases hs
      | some k =>
        obtain ⟨r, _, hs⟩ := Res.bind_eq_ok.1 hs
        injection hs with hs
        exact ⟨_, hs.symm, hks, hws⟩
  rw [e1, e2]
  refine ⟨fun h => ?_, fun h h' => ?_, fun h h' => ?_⟩
  · obtain ⟨v, rfl, g⟩ := fv.2 h; exact g
  · obtain ⟨v, rfl, g⟩ := fs.2 h'
    rw [fv.1 h]; exact g
  · rw [fv.1 h, fs.1 h']; exact ⟨rfl, rfl⟩

/-- A document with eigenvelocities on one k-point, which is not one of the list. -/
def velocityDoc : Node := box c!"modeling" [sampleKpoints, sampleParams c!" 2 " c!" 1 ", box c!"calculation" [box c!"eigenvelocities"
  [box c!"kpoints" [named c!"varray" c!"kpointlist" [leaf c!"v" c!" 0.25 0.0 0.0 "]], box c!"eigenvalues" [box c!"array" [box c!"set"
    [commented c!"set" c!"spin 1" [commented c!"set" c!"kpoint 1" [leaf c!"r" c!" -1.0 1.0 2.0 3.0 ", leaf c!"r" c!" 2.5 0.0 0.5 0.0 "]]]]]]]]

example : ∃ d, parsew velocityDoc true true = .ok d ∧ d.params.nbands = some 2 ∧ (velocitySets velocityDoc c!"spin 1").length = 1 ∧
    d.eigenvelocities = some (.total [[[-1, 1, 2, 3], [5/2, 0, 1/2, 0]]]) ∧ d.kpointsSpecific = some [[1/4, 0, 0]] := by
  refine ⟨_, rfl, by decide +kernel, rfl, by decide +kernel, by decide +kernel⟩

end Verif.Vasprun
