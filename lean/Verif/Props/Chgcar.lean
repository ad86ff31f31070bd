import Verif.Model.Chgcar
import Verif.Props.Doscar
import Verif.Props.Utils
import Verif.Props.Eigenval
import Mathlib.Tactic.Ring
/-! # CHGCAR: densities stand where they are printed (C41) -/
set_option autoImplicit false
namespace Verif.Chgcar
open Verif Verif.Utils
open Verif.Kpoints (idx toFloat toInt)
open Verif.Outcar (cut)
open Verif.Lattice (V3 M3)
open Verif.Eigenval (Numbers at3)

/-! ### specification -/

/-- The first place where `p` stands in `s`: `a` is before it, `b` behind it. -/
def FirstAt (p s a b : Str) : Prop := s = a ++ p ++ b ∧ ∀ i < a.length, ¬ p <+: s.drop i

/-- `a` is what stands before the first `p` in `s`, everything if there is none. -/
def Before (p s a : Str) : Prop := (∃ b, FirstAt p s a b) ∨ a = s ∧ ¬ p <:+: s

/-- The pieces between the places where `g` stands. -/
inductive Pieces (g : Str) : Str → List Str → Prop
  | last {s : Str} : ¬ g <:+: s → Pieces g s [s]
  | cons {s a b : Str} {ps : List Str} : FirstAt g s a b → Pieces g b ps → Pieces g s (a :: ps)

/-- A line that prints a vector (a single number stands for all three components). -/
def PrintsVector (line : Str) (v : V3 Rat) : Prop :=
  Numbers (words line) [v.x, v.y, v.z] ∨ Numbers (words line) [v.x] ∧ v = ⟨v.x, v.x, v.x⟩

/-- A text in the format of CHGCAR: a header with the scaling factor and the lattice vectors on lines two to five, a blank line, the grid
line and data sets separated by repetitions of the grid line. -/
structure File (text : Str) (scale : Rat) (cell : M3 Rat) (nx ny nz : Nat) (pieces : List Str) : Prop where
  parts : ∃ header rest grid body l1 l2 l3 l4, FirstAt c!"\n\n" text header rest ∧ FirstAt c!"\n" rest grid body ∧
    (splitOn '\n' header)[1]? = some l1 ∧ pyFloatRat l1 = some scale ∧
    (splitOn '\n' header)[2]? = some l2 ∧ PrintsVector l2 cell.a ∧
    (splitOn '\n' header)[3]? = some l3 ∧ PrintsVector l3 cell.b ∧
    (splitOn '\n' header)[4]? = some l4 ∧ PrintsVector l4 cell.c ∧
    List.Forall₂ (fun w (x : Int) => pyInt w = some x) (words grid) [nx, ny, nz] ∧
    Pieces grid body pieces

/-- `grid` holds the numbers of a data set before its 'augmentation occupancies', x running fastest and z slowest, divided by `volume`. -/
def IsDensity (nx ny nz : Nat) (volume : Rat) (piece : Str) (grid : Grid) : Prop :=
  ∃ t xs, Before c!"augmentation occupancies" piece t ∧ Numbers (words t) xs ∧ xs.length = nx * ny * nz ∧
    grid.length = nz ∧ (∀ p ∈ grid, p.length = ny ∧ ∀ r ∈ p, r.length = nx) ∧
    ∀ x y z, x < nx → y < ny → z < nz → ∃ v, xs[x + nx * (y + ny * z)]? = some v ∧ at3 grid z y x = some (v / volume)

/-! ### text -/

theorem prefix_drop_cons {p s : Str} {c : Char} {i : Nat} : p <+: (c :: s).drop (i + 1) ↔ p <+: s.drop i := by simp

theorem cut_some {p : Str} (hp : p ≠ []) {s a b : Str} : cut p s = (a, some b) ↔ FirstAt p s a b := by
  induction s generalizing a with
  | nil =>
    simp only [cut, FirstAt]
    constructor
    · intro h; cases h
    · rintro ⟨h, _⟩
      have h1 := congrArg List.length h
      have h2 := List.length_pos_iff.2 hp
      simp only [List.length_append, List.length_nil] at h1; omega
  | cons c cs ih =>
    rw [cut]
    split
    · rename_i hs
      rw [startsWith_iff] at hs
      obtain ⟨r, hr⟩ := hs
      rw [← hr, List.drop_left]
      constructor
      · intro h; cases h; exact ⟨by simp, by simp⟩
      · rintro ⟨h1, h2⟩
        cases a with
        | nil =>
          simp only [List.nil_append] at h1
          rw [List.append_cancel_left h1]
        | cons x a => exact absurd (h2 0 (by simp)) (by simp)
    · rename_i hs
      rw [startsWith_iff] at hs
      constructor
      · intro h
        injection h with h1 h2
        subst h1
        obtain ⟨e, hi⟩ := ih.1 (Prod.ext rfl h2)
        refine ⟨by rw [List.cons_append, List.cons_append, ← e], ?_⟩
        intro i hlt
        cases i with
        | zero => exact hs
        | succ i => rw [prefix_drop_cons]; exact hi i (by simpa using hlt)
      · rintro ⟨e, hi⟩
        cases a with
        | nil =>
          exfalso; apply hs
          rw [e]; simp
        | cons x a =>
          simp only [List.cons_append, List.cons.injEq] at e
          have := ih.2 (⟨e.2, fun i hlt => by
            have := hi (i + 1) (by simpa using hlt)
            rwa [prefix_drop_cons] at this⟩ : FirstAt p cs a b)
          rw [this, e.1]

theorem cut_none {p : Str} (hp : p ≠ []) {s a : Str} : cut p s = (a, none) ↔ a = s ∧ ¬ p <:+: s := by
  induction s generalizing a with
  | nil =>
    simp only [cut]
    constructor
    · intro h; cases h; exact ⟨rfl, by simpa using hp⟩
    · rintro ⟨rfl, _⟩; rfl
  | cons c cs ih =>
    rw [cut]
    split
    · rename_i hs
      rw [startsWith_iff] at hs
      constructor
      · intro h; cases h
      · rintro ⟨_, h⟩; exact absurd hs.isInfix h
    · rename_i hs
      rw [startsWith_iff] at hs
      rw [List.infix_cons_iff]
      constructor
      · intro h
        injection h with h1 h2
        subst h1
        obtain ⟨e, hi⟩ := ih.1 (Prod.ext rfl h2)
        exact ⟨congrArg _ e, by tauto⟩
      · rintro ⟨rfl, h⟩
        have := ih.2 ⟨rfl, fun hh => h (.inr hh)⟩
        rw [this]

theorem cut_fst {p : Str} (hp : p ≠ []) {s a : Str} : (cut p s).1 = a ↔ Before p s a := by
  cases hc : cut p s with
  | mk x y =>
    cases y with
    | some b =>
      constructor
      · intro h; exact .inl ⟨b, (cut_some hp).1 (by rw [hc]; simp at h; rw [h])⟩
      · rintro (⟨b', h⟩ | ⟨rfl, h⟩)
        · rw [(cut_some hp).2 h] at hc; cases hc; rfl
        · rw [(cut_none hp).2 ⟨rfl, h⟩] at hc; cases hc
    | none =>
      constructor
      · intro h; exact .inr ((cut_none hp).1 (by rw [hc]; simp at h; rw [h]))
      · rintro (⟨b', h⟩ | h)
        · rw [(cut_some hp).2 h] at hc; cases hc
        · rw [(cut_none hp).2 h] at hc; cases hc; rfl

theorem splitStr_iff {g : Str} (hg : g ≠ []) : ∀ (n : Nat) (s : Str) (ps : List Str), s.length ≤ n → (splitStr g n s = ps ↔ Pieces g s ps)
  | 0, s, ps, hn => by
    have hs : s = [] := by simpa using hn
    subst hs
    have hnot : ¬ g <:+: [] := by simpa using hg
    constructor
    · rintro rfl; exact .last hnot
    · intro h
      cases h with
      | last _ => rfl
      | cons hf _ =>
        have h1 := congrArg List.length hf.1
        have h2 := List.length_pos_iff.2 hg
        simp only [List.length_append, List.length_nil] at h1; omega
  | n + 1, s, ps, hn => by
    rw [splitStr]
    cases hc : cut g s with
    | mk a y =>
      cases y with
      | none =>
        obtain ⟨rfl, hnot⟩ := (cut_none hg).1 hc
        simp only
        constructor
        · rintro rfl; exact .last hnot
        · intro h
          cases h with
          | last _ => rfl
          | cons hf _ => rw [(cut_some hg).2 hf] at hc; cases hc
      | some r =>
        have hf := (cut_some hg).1 hc
        have hlen : r.length ≤ n := by
          have h1 := congrArg List.length hf.1
          have h2 := List.length_pos_iff.2 hg
          simp only [List.length_append] at h1; omega
        simp only
        constructor
        · rintro rfl; exact .cons hf ((splitStr_iff hg n r _ hlen).1 rfl)
        · intro h
          cases h with
          | last hnot => rw [(cut_none hg).2 ⟨rfl, hnot⟩] at hc; cases hc
          | cons hf' hps =>
            rw [(cut_some hg).2 hf'] at hc
            cases hc
            rw [(splitStr_iff hg n r _ hlen).2 hps]

/-! ### numbers -/

theorem toNumbers_iff (ws : List Str) (xs : List Rat) : Res.mapM' toNumber ws = .ok xs ↔ Numbers ws xs := by
  unfold Numbers
  rw [Res.mapM'_eq_ok]
  have : ∀ w x, toNumber w = .ok x ↔ pyFloatRat w = some x := by
    intro w x; unfold toNumber; cases pyFloatRat w <;> simp
  simp only [this]

theorem ints_iff (ws : List Str) (xs : List Int) : Res.mapM' toInt ws = .ok xs ↔ List.Forall₂ (fun w x => pyInt w = some x) ws xs := by
  rw [Res.mapM'_eq_ok]
  have : ∀ w x, toInt w = .ok x ↔ pyInt w = some x := by
    intro w x; unfold toInt; cases pyInt w <;> simp
  simp only [this]

theorem Numbers.unique {ws : List Str} {r s : List Rat} (h1 : Numbers ws r) (h2 : Numbers ws s) : r = s := by
  rw [← toNumbers_iff] at h1 h2
  rw [h1] at h2; cases h2; rfl

theorem idx_iff {α} (l : List α) (i : Nat) (a : α) : idx l i = .ok a ↔ l[i]? = some a := by
  constructor
  · exact Doscar.idx_ok'
  · intro h; unfold idx; rw [h]

theorem readVector_iff (t : Rat) (header : List Str) (i : Nat) (w : V3 Rat) : readVector t header i = .ok w ↔
    ∃ l v, header[i + 2]? = some l ∧ PrintsVector l v ∧ w = v.map (t * ·) := by
  unfold readVector
  constructor
  · intro h
    obtain ⟨l, hl, h⟩ := Res.bind_eq_ok.1 h
    obtain ⟨xs, hx, h⟩ := Res.bind_eq_ok.1 h
    rw [idx_iff] at hl
    rw [← Eigenval.numbers_iff] at hx
    match xs, hx, h with
    | [x, y, z], hx, h => cases h; exact ⟨l, ⟨x, y, z⟩, hl, .inl hx, rfl⟩
    | [x], hx, h => cases h; exact ⟨l, ⟨x, x, x⟩, hl, .inr ⟨hx, rfl⟩, rfl⟩
    | [], _, h => cases h
    | [_, _], _, h => cases h
    | _ :: _ :: _ :: _ :: _, _, h => cases h
  · rintro ⟨l, v, hl, hv, rfl⟩
    rw [(idx_iff _ _ _).2 hl, Res.ok_bind]
    rcases hv with hv | ⟨hv, he⟩
    · rw [(Eigenval.numbers_iff _ _).1 hv, Res.ok_bind]; rfl
    · rw [(Eigenval.numbers_iff _ _).1 hv, Res.ok_bind, he]; rfl

/-! ### grids -/

theorem chunks_length {α : Type} (n k : Nat) (l : List α) : (chunks n k l).length = k := by simp [chunks]

theorem chunks_get {α : Type} (n k : Nat) (l : List α) {i : Nat} (hi : i < k) : (chunks n k l)[i]? = some ((l.drop (i * n)).take n) := by
  simp [chunks, hi]

theorem chunk_elem {α : Type} {n k : Nat} {l c : List α} (hl : l.length = k * n) (hc : c ∈ chunks n k l) : c.length = n := by
  obtain ⟨i, hi, rfl⟩ := List.mem_map.1 hc
  rw [List.mem_range] at hi
  have : (i + 1) * n ≤ k * n := Nat.mul_le_mul_right _ hi
  rw [Nat.add_mul] at this
  rw [List.length_take, List.length_drop]
  omega

/-- The arrangement of the numbers in the model. -/
def arrange (nz ny nx : Nat) (volume : Rat) (xs : List Rat) : Grid :=
  (chunks (ny * nx) nz xs).map fun plane => (chunks nx ny plane).map fun row => row.map fun v => v / volume

theorem arrange_spec (nz ny nx : Nat) (volume : Rat) (xs : List Rat) (hl : xs.length = nx * ny * nz) :
    (arrange nz ny nx volume xs).length = nz ∧ (∀ p ∈ arrange nz ny nx volume xs, p.length = ny ∧ ∀ r ∈ p, r.length = nx) ∧
    ∀ x y z, x < nx → y < ny → z < nz →
      ∃ v, xs[x + nx * (y + ny * z)]? = some v ∧ at3 (arrange nz ny nx volume xs) z y x = some (v / volume) := by
  have hl' : xs.length = nz * (ny * nx) := by rw [hl]; ring
  refine ⟨by simp [arrange, chunks_length], ?_, ?_⟩
  · intro p hp
    obtain ⟨plane, hplane, rfl⟩ := List.mem_map.1 hp
    have hpl := chunk_elem hl' hplane
    refine ⟨by simp [chunks_length], fun r hr => ?_⟩
    obtain ⟨row, hrow, rfl⟩ := List.mem_map.1 hr
    rw [List.length_map]
    exact chunk_elem hpl hrow
  · intro x y z hx hy hz
    have h1 : y * nx + x < ny * nx := by
      have : (y + 1) * nx ≤ ny * nx := Nat.mul_le_mul_right _ hy
      rw [Nat.add_mul] at this; omega
    have h2 : z * (ny * nx) + (y * nx + x) < xs.length := by
      rw [hl']
      have : (z + 1) * (ny * nx) ≤ nz * (ny * nx) := Nat.mul_le_mul_right _ hz
      rw [Nat.add_mul] at this; omega
    have e : x + nx * (y + ny * z) = z * (ny * nx) + (y * nx + x) := by ring
    rw [e]
    refine ⟨xs[z * (ny * nx) + (y * nx + x)], List.getElem?_eq_getElem h2, ?_⟩
    unfold at3 arrange
    rw [List.getElem?_map, chunks_get _ _ _ hz]
    simp only [Option.map_some, Option.bind_some, List.getElem?_map]
    rw [chunks_get _ _ _ hy]
    simp only [Option.map_some, Option.bind_some, List.getElem?_map]
    rw [List.getElem?_take_of_lt hx, List.getElem?_drop, List.getElem?_take_of_lt h1, List.getElem?_drop,
      List.getElem?_eq_getElem h2]
    rfl

theorem list_ext {α : Type} {l m : List α} (hl : l.length = m.length) (h : ∀ (i : Nat) (a b : α), l[i]? = some a → m[i]? = some b → a = b) : l = m := by
  apply List.ext_getElem hl
  intro i h1 h2
  exact h i _ _ (List.getElem?_eq_getElem h1) (List.getElem?_eq_getElem h2)

theorem IsDensity.unique {nx ny nz : Nat} {volume : Rat} {piece : Str} {g g' : Grid} (h : IsDensity nx ny nz volume piece g)
    (h' : IsDensity nx ny nz volume piece g') : g = g' := by
  obtain ⟨t, xs, ht, hx, hl, hg1, hg2, hg3⟩ := h
  obtain ⟨t', xs', ht', hx', hl', hg1', hg2', hg3'⟩ := h'
  have hp : (c!"augmentation occupancies" : Str) ≠ [] := by decide
  have : t = t' := by rw [← (cut_fst hp).2 ht, ← (cut_fst hp).2 ht']
  subst this
  have := Numbers.unique hx hx'
  subst this
  apply list_ext (by rw [hg1, hg1'])
  intro z p q hz hz'
  have hzn : z < nz := hg1 ▸ (List.getElem?_eq_some_iff.1 hz).1
  have hp := hg2 p (List.mem_of_getElem? hz)
  have hq := hg2' q (List.mem_of_getElem? hz')
  apply list_ext (by rw [hp.1, hq.1])
  intro y r s hy hy'
  have hyn : y < ny := hp.1 ▸ (List.getElem?_eq_some_iff.1 hy).1
  have hr := hp.2 r (List.mem_of_getElem? hy)
  have hs := hq.2 s (List.mem_of_getElem? hy')
  apply list_ext (by rw [hr, hs])
  intro x a b hxa hxb
  have hxn : x < nx := hr ▸ (List.getElem?_eq_some_iff.1 hxa).1
  obtain ⟨v, hv, ha⟩ := hg3 x y z hxn hyn hzn
  obtain ⟨v', hv', hb⟩ := hg3' x y z hxn hyn hzn
  rw [hv] at hv'; cases hv'
  unfold at3 at ha hb
  rw [hz, Option.bind_some, hy, Option.bind_some, hxa] at ha
  rw [hz', Option.bind_some, hy', Option.bind_some, hxb] at hb
  cases ha; cases hb; rfl

theorem density_iff {nx ny nz : Nat} {volume : Rat} {piece : Str} {g : Grid} :
    density nz ny nx volume piece = .ok g ↔ volume ≠ 0 ∧ IsDensity nx ny nz volume piece g := by
  have hp : (c!"augmentation occupancies" : Str) ≠ [] := by decide
  have fwd : ∀ g, density nz ny nx volume piece = .ok g → volume ≠ 0 ∧ IsDensity nx ny nz volume piece g := by
    intro g h
    unfold density at h
    obtain ⟨xs, hx, h⟩ := Res.bind_eq_ok.1 h
    rw [toNumbers_iff] at hx
    split at h
    · rename_i hl
      split at h
      · cases h
      · rename_i hv
        cases h
        have hl' : xs.length = nx * ny * nz := by rw [hl]; ring
        exact ⟨hv, _, xs, (cut_fst hp).1 rfl, hx, hl', arrange_spec nz ny nx volume xs hl'⟩
    · cases h
  refine ⟨fwd g, ?_⟩
  rintro ⟨hv, h⟩
  obtain ⟨t, xs, ht, hx, hl, _⟩ := id h
  have hl' : xs.length = nz * ny * nx := by rw [hl]; ring
  have : density nz ny nx volume piece = .ok (arrange nz ny nx volume xs) := by
    unfold density
    rw [(cut_fst hp).2 ht, (toNumbers_iff _ _).2 hx, Res.ok_bind, if_pos hl', if_neg hv]
    rfl
  rw [this, (fwd _ this).2.unique h]

/-! ### theorems -/

/-- What the attribute `magnetization_density` holds for given data sets: nothing for a single one, the second of two, the second to fourth
of four as x, y and z; nothing for other numbers. -/
def IsMagnetization (nx ny nz : Nat) (volume : Rat) (pieces : List Str) : Magnetization → Prop
  | .none => pieces.length ≠ 2 ∧ pieces.length ≠ 4
  | .collinear g => ∃ a b, pieces = [a, b] ∧ IsDensity nx ny nz volume b g
  | .components x y z => ∃ a b c d, pieces = [a, b, c, d] ∧ IsDensity nx ny nz volume b x ∧ IsDensity nx ny nz volume c y ∧
      IsDensity nx ny nz volume d z

theorem magnetization_iff {nx ny nz : Nat} {volume : Rat} (hv : volume ≠ 0) {pieces : List Str} {m : Magnetization} :
    magnetization nz ny nx volume pieces = .ok m ↔ IsMagnetization nx ny nz volume pieces m := by
  have one : ∀ a b, magnetization nz ny nx volume [a, b] = .ok m ↔ IsMagnetization nx ny nz volume [a, b] m := by
    intro a b
    show (density nz ny nx volume b >>= fun g => .ok (.collinear g)) = .ok m ↔ _
    rw [Res.bind_eq_ok]
    simp only [density_iff, Res.ok.injEq]
    constructor
    · rintro ⟨g, ⟨_, hg⟩, rfl⟩; exact ⟨a, b, rfl, hg⟩
    · intro h
      cases m with
      | none => exact absurd rfl h.1
      | collinear g => obtain ⟨a', b', he, hg⟩ := h; cases he; exact ⟨g, ⟨hv, hg⟩, rfl⟩
      | components x y z => obtain ⟨_, _, _, _, he, _⟩ := h; cases he
  have three : ∀ a b c d, magnetization nz ny nx volume [a, b, c, d] = .ok m ↔ IsMagnetization nx ny nz volume [a, b, c, d] m := by
    intro a b c d
    show (density nz ny nx volume b >>= fun x => density nz ny nx volume c >>= fun y => density nz ny nx volume d >>= fun z =>
      .ok (.components x y z)) = .ok m ↔ _
    simp only [Res.bind_eq_ok, density_iff, Res.ok.injEq]
    constructor
    · rintro ⟨x, ⟨_, hx⟩, y, ⟨_, hy⟩, z, ⟨_, hz⟩, rfl⟩; exact ⟨a, b, c, d, rfl, hx, hy, hz⟩
    · intro h
      cases m with
      | none => exact absurd rfl h.2
      | collinear g => obtain ⟨_, _, he, _⟩ := h; cases he
      | components x y z => obtain ⟨_, _, _, _, he, hx, hy, hz⟩ := h; cases he; exact ⟨x, ⟨hv, hx⟩, y, ⟨hv, hy⟩, z, ⟨hv, hz⟩, rfl⟩
  have other : pieces.length ≠ 2 → pieces.length ≠ 4 → magnetization nz ny nx volume pieces = .ok .none →
      (magnetization nz ny nx volume pieces = .ok m ↔ IsMagnetization nx ny nz volume pieces m) := by
    intro h2 h4 he
    rw [he]
    cases m with
    | none => exact ⟨fun _ => ⟨h2, h4⟩, fun _ => rfl⟩
    | collinear g => exact ⟨fun h => (by cases h), by rintro ⟨_, _, rfl, _⟩; exact absurd rfl h2⟩
    | components x y z => exact ⟨fun h => (by cases h), by rintro ⟨_, _, _, _, rfl, _⟩; exact absurd rfl h4⟩
  match pieces, other with
  | [a, b], _ => exact one a b
  | [a, b, c, d], _ => exact three a b c d
  | [], other => exact other (by simp) (by simp) rfl
  | [_], other => exact other (by simp) (by simp) rfl
  | [_, _, _], other => exact other (by simp) (by simp) rfl
  | _ :: _ :: _ :: _ :: _ :: _, other => exact other (by simp) (by simp) rfl

theorem volume_eq (t : Rat) (a b c : V3 Rat) : (a.map (t * ·)).dot (cross (b.map (t * ·)) (c.map (t * ·))) = t ^ 3 * (M3.mk a b c).det := by
  simp only [V3.map, V3.dot, cross, M3.det]; ring

/-- C41: a text is accepted exactly if it is a CHGCAR whose data sets fill its grid, and then the value at z, y, x is the
(x + NX (y + NY z))-th number of the data set divided by the triple product of the scaled lattice vectors. Missing in the full claim: the
triple product is the volume only for right-handed cells and positive scaling factors, see `C41_volume_partial` and the violations. -/
theorem C41_grid_partial (text : Str) (d : Data) : init none (some text) = .ok d ↔
    ∃ (scale : Rat) (cell : M3 Rat) (nx ny nz : Nat) (pieces : List Str) (p : Str), File text scale cell nx ny nz pieces ∧
      scale ^ 3 * cell.det ≠ 0 ∧ pieces.head? = some p ∧ IsDensity nx ny nz (scale ^ 3 * cell.det) p d.total ∧
      IsMagnetization nx ny nz (scale ^ 3 * cell.det) pieces d.magnetization := by
  show fromText text = .ok d ↔ _
  have hnn : (c!"\n\n" : Str) ≠ [] := by decide
  have hn : (c!"\n" : Str) ≠ [] := by decide
  constructor
  · intro h
    unfold fromText at h
    obtain ⟨rest, hrest, h⟩ := Res.bind_eq_ok.1 h
    obtain ⟨s, hs, h⟩ := Res.bind_eq_ok.1 h
    obtain ⟨t, ht, h⟩ := Res.bind_eq_ok.1 h
    obtain ⟨a, ha, h⟩ := Res.bind_eq_ok.1 h
    obtain ⟨b, hb, h⟩ := Res.bind_eq_ok.1 h
    obtain ⟨c, hc, h⟩ := Res.bind_eq_ok.1 h
    obtain ⟨body, hbody, h⟩ := Res.bind_eq_ok.1 h
    obtain ⟨ngf, hngf, h⟩ := Res.bind_eq_ok.1 h
    have sec : ∀ (p : Str) (s r : Str), p ≠ [] → second (cut p s) = .ok r → FirstAt p s (cut p s).1 r := by
      intro p s r hp h
      unfold second at h
      cases hcut : (cut p s).2 with
      | none => rw [hcut] at h; cases h
      | some q => rw [hcut] at h; cases h; exact (cut_some hp).1 (Prod.ext rfl hcut)
    have f1 := sec _ _ _ hnn hrest
    have f2 := sec _ _ _ hn hbody
    rw [idx_iff] at hs
    rw [Doscar.toFloat_iff] at ht
    rw [readVector_iff] at ha hb hc
    obtain ⟨la, va, ha1, ha2, rfl⟩ := ha
    obtain ⟨lb, vb, hb1, hb2, rfl⟩ := hb
    obtain ⟨lc, vc, hc1, hc2, rfl⟩ := hc
    rw [ints_iff] at hngf
    simp only [volume_eq] at h
    match ngf, hngf, h with
    | [nx, ny, nz], hngf, h =>
      simp only at h
      split at h
      · cases h
      · rename_i hneg
        obtain ⟨p0, hp0, h⟩ := Res.bind_eq_ok.1 h
        obtain ⟨total, htotal, h⟩ := Res.bind_eq_ok.1 h
        obtain ⟨m, hm, h⟩ := Res.bind_eq_ok.1 h
        cases h
        rw [density_iff] at htotal
        rw [magnetization_iff htotal.1] at hm
        rw [idx_iff] at hp0
        have hg : (cut c!"\n" rest).1 ≠ [] := by
          intro h0
          rw [h0] at hngf
          cases hngf
        refine ⟨t, ⟨va, vb, vc⟩, nx.toNat, ny.toNat, nz.toNat, _, p0, ⟨_, rest, _, body, s, la, lb, lc, f1, f2, hs, ht, ha1, ha2, hb1, hb2,
          hc1, hc2, ?_, (splitStr_iff hg _ _ _ le_rfl).1 rfl⟩, htotal.1, by rw [List.head?_eq_getElem?]; exact hp0, htotal.2, hm⟩
        have e1 : ((nx.toNat : Nat) : Int) = nx := by omega
        have e2 : ((ny.toNat : Nat) : Int) = ny := by omega
        have e3 : ((nz.toNat : Nat) : Int) = nz := by omega
        rw [e1, e2, e3]
        exact hngf
    | [], _, h => cases h
    | [_], _, h => cases h
    | [_, _], _, h => cases h
    | _ :: _ :: _ :: _ :: _, _, h => cases h
  · rintro ⟨t, ⟨va, vb, vc⟩, nx, ny, nz, pieces, p, ⟨header, rest, grid, body, l1, l2, l3, l4, f1, f2, hs, ht, ha1, ha2, hb1, hb2, hc1, hc2,
      hi, hps⟩, hv, hp, hd, hm⟩
    unfold fromText
    rw [(cut_some hnn).2 f1]
    simp only [second, Res.ok_bind]
    rw [(idx_iff _ _ _).2 hs, Res.ok_bind, (Doscar.toFloat_iff _ _).2 ht, Res.ok_bind,
      (readVector_iff _ _ _ _).2 ⟨l2, va, ha1, ha2, rfl⟩, Res.ok_bind, (readVector_iff _ _ _ _).2 ⟨l3, vb, hb1, hb2, rfl⟩, Res.ok_bind,
      (readVector_iff _ _ _ _).2 ⟨l4, vc, hc1, hc2, rfl⟩, Res.ok_bind, (cut_some hn).2 f2]
    simp only [second, Res.ok_bind]
    have hg : grid ≠ [] := by rintro rfl; cases hi
    rw [(ints_iff _ _).2 hi, Res.ok_bind]
    simp only
    rw [if_neg (by omega), volume_eq, (splitStr_iff hg _ _ _ le_rfl).2 hps, (idx_iff _ _ _).2 (by rw [← List.head?_eq_getElem?]; exact hp),
      Res.ok_bind]
    simp only [Int.toNat_natCast]
    rw [density_iff.2 ⟨hv, hd⟩, Res.ok_bind, (magnetization_iff hv).2 hm, Res.ok_bind]

/-- The volume of the cell: the absolute value of the triple product of the scaled lattice vectors; a negative scaling factor gives the
volume itself (convention of VASP). -/
def cellVolume (scale : Rat) (cell : M3 Rat) : Rat := if 0 < scale then |scale ^ 3 * cell.det| else -scale

/-- C41, proved part for the volume: for a positive scaling factor and a right-handed cell the values are the printed numbers divided by the
volume of the cell. Missing: other cells, for which the claim is false (see the violations). -/
theorem C41_volume_partial (text : Str) (d : Data) (h : init none (some text) = .ok d) :
    ∃ (scale : Rat) (cell : M3 Rat) (nx ny nz : Nat) (pieces : List Str) (p : Str), File text scale cell nx ny nz pieces ∧
      pieces.head? = some p ∧ (0 < scale → 0 < cell.det → IsDensity nx ny nz (cellVolume scale cell) p d.total ∧
        IsMagnetization nx ny nz (cellVolume scale cell) pieces d.magnetization) := by
  obtain ⟨scale, cell, nx, ny, nz, pieces, p, hf, _, hp, hd, hm⟩ := (C41_grid_partial text d).1 h
  refine ⟨scale, cell, nx, ny, nz, pieces, p, hf, hp, fun h1 h2 => ?_⟩
  have : cellVolume scale cell = scale ^ 3 * cell.det := by
    unfold cellVolume
    rw [if_pos h1, abs_of_pos (mul_pos (pow_pos h1 3) h2)]
  rw [this]
  exact ⟨hd, hm⟩

/-- A text with a single point, the number 8 and the given second to fifth lines. -/
def single (lines : Str) : Str := c!"x\n" ++ lines ++ c!"\nH\n1\nDirect\n0 0 0\n\n 1 1 1\n 8.0\n"

/-- C41 is false for left-handed cells: the density has the wrong sign. -/
theorem C41_violation_handed : init none (some (single c!"1.0\n 0 2 0\n 2 0 0\n 0 0 2")) = .ok ⟨[[[-1]]], .none⟩ ∧
    cellVolume 1 ⟨⟨0, 2, 0⟩, ⟨2, 0, 0⟩, ⟨0, 0, 2⟩⟩ = 8 := by
  constructor <;> decide +kernel

/-- C41 is false for negative scaling factors: the printed number 8 in a cell of volume 8 becomes -1/64. -/
theorem C41_violation_scaling : init none (some (single c!"-8.0\n 1 0 0\n 0 1 0\n 0 0 1")) = .ok ⟨[[[-1/64]]], .none⟩ ∧
    cellVolume (-8) ⟨⟨1, 0, 0⟩, ⟨0, 1, 0⟩, ⟨0, 0, 1⟩⟩ = 8 := by
  constructor <;> decide +kernel

/-- A file with four data sets on a grid of 2 x 1 x 2 points. -/
def exampleText : Str := c!"cmt\n 2.0\n 1.0 0.0 0.0\n 0.0 1.0 0.0\n 0.0 0.0 0.5\nH\n1\nDirect\n 0 0 0\n\n  2  1  2\n 4.0 8.0 12.0\n 16.0\naugmentation occupancies 1 2\n 0.1 0.2\n  2  1  2\n 1 2 3 4\n  2  1  2\n 5 6 7 8\n  2  1  2\n 9 10 11 12\n"

example : init none (some exampleText) = .ok ⟨[[[1, 2]], [[3, 4]]], .components [[[1/4, 1/2]], [[3/4, 1]]] [[[5/4, 3/2]], [[7/4, 2]]]
    [[[9/4, 5/2]], [[11/4, 3]]]⟩ := by decide +kernel

/-- Its cell is right-handed and the scaling factor positive. -/
example : (0 : Rat) < 2 ∧ 0 < (M3.mk (⟨1, 0, 0⟩ : V3 Rat) ⟨0, 1, 0⟩ ⟨0, 0, 1/2⟩).det := by decide +kernel

end Verif.Chgcar
