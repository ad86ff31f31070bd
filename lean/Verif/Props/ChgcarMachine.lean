import Verif.Model.ChgcarMachine
import Verif.Props.Chgcar
import Verif.Props.LatticeRound
/-! # CHGCAR with machine arithmetic (C146) -/
set_option autoImplicit false
namespace Verif.Chgcar
open Verif Verif.Utils
open Verif.Kpoints (idx toFloat toInt)
open Verif.Outcar (cut)
open Verif.Lattice (V3 M3)
open Verif.Eigenval (Numbers at3)

/-! ### specification -/

/-- The grid of a data set: at z, y, x stands `f` of the (x + NX (y + NY z))-th printed number, and nothing else. -/
def IsGridOf (nx ny nz : Nat) (f : Rat → Rat) (piece : Str) (grid : Grid) : Prop :=
  ∃ t xs, Before c!"augmentation occupancies" piece t ∧ Numbers (words t) xs ∧ xs.length = nx * ny * nz ∧
    grid.length = nz ∧ (∀ p ∈ grid, p.length = ny ∧ ∀ r ∈ p, r.length = nx) ∧
    ∀ x y z, x < nx → y < ny → z < nz → ∃ v, xs[x + nx * (y + ny * z)]? = some v ∧ at3 grid z y x = some (f v)

/-- Likewise for the magnetization: nothing for a single data set, the second of two, the second to fourth of four; nothing for other numbers. -/
def IsMagnetizationOf (nx ny nz : Nat) (f : Rat → Rat) (pieces : List Str) : Magnetization → Prop
  | .none => pieces.length ≠ 2 ∧ pieces.length ≠ 4
  | .collinear g => ∃ a b, pieces = [a, b] ∧ IsGridOf nx ny nz f b g
  | .components x y z => ∃ a b c d, pieces = [a, b, c, d] ∧ IsGridOf nx ny nz f b x ∧ IsGridOf nx ny nz f c y ∧ IsGridOf nx ny nz f d z

/-- A lattice vector as the machine has it. -/
def machineVector (A : Machine) (scale : Rat) (v : V3 Rat) : V3 Rat := v.map fun x => A.mul (A.num scale) (A.num x)

/-- The volume the machine divides by. -/
def machineVolume (A : Machine) (scale : Rat) (cell : M3 Rat) : Rat :=
  A.dot (machineVector A scale cell.a) (A.cross (machineVector A scale cell.b) (machineVector A scale cell.c))

/-! ### reading -/

theorem machine_readVector_iff (A : Machine) (t : Rat) (header : List Str) (i : Nat) (w : V3 Rat) : A.readVector (A.num t) header i = .ok w ↔
    ∃ l v, header[i + 2]? = some l ∧ PrintsVector l v ∧ w = machineVector A t v := by
  unfold Machine.readVector machineVector
  constructor
  · intro h
    obtain ⟨l, hl, h⟩ := Res.bind_eq_ok.1 h
    obtain ⟨xs, hx, h⟩ := Res.bind_eq_ok.1 h
    rw [idx_iff] at hl
    rw [← Eigenval.numbers_iff] at hx
    match xs, hx, h with
    | [x, y, z], hx, h => cases h; exact ⟨l, ⟨x, y, z⟩, hl, .inl hx, rfl⟩
    | [x], hx, h => cases h; exact ⟨l, ⟨x, x, x⟩, hl, .inr ⟨hx, rfl⟩, rfl⟩
    | [], _, h => cases h
    | [_, _], _, h => cases h
    | _ :: _ :: _ :: _ :: _, _, h => cases h
  · rintro ⟨l, v, hl, hv, rfl⟩
    rw [(idx_iff _ _ _).2 hl, Res.ok_bind]
    rcases hv with hv | ⟨hv, he⟩
    · rw [(Eigenval.numbers_iff _ _).1 hv, Res.ok_bind]; rfl
    · rw [(Eigenval.numbers_iff _ _).1 hv, Res.ok_bind, he]; rfl

/-- Apply a function to all numbers of a grid. -/
def mapGrid (f : Rat → Rat) (g : Grid) : Grid := g.map fun p => p.map fun r => r.map f

theorem at3_mapGrid (f : Rat → Rat) (g : Grid) (z y x : Nat) : at3 (mapGrid f g) z y x = (at3 g z y x).map f := by
  unfold at3 mapGrid
  rw [List.getElem?_map]
  cases g[z]? with
  | none => rfl
  | some p =>
    simp only [Option.map_some, Option.bind_some, List.getElem?_map]
    cases p[y]? with
    | none => rfl
    | some r => simp only [Option.map_some, Option.bind_some, List.getElem?_map]

theorem mapGrid_shape (f : Rat → Rat) (g : Grid) (nx ny nz : Nat) : ((mapGrid f g).length = nz ∧ ∀ p ∈ mapGrid f g, p.length = ny ∧ ∀ r ∈ p, r.length = nx) ↔
    (g.length = nz ∧ ∀ p ∈ g, p.length = ny ∧ ∀ r ∈ p, r.length = nx) := by
  unfold mapGrid
  simp

/-- The density of the machine is that of the exact model for the volume one, with a function applied to all numbers. -/
theorem machine_density (A : Machine) (nx ny nz : Nat) (volume : Rat) (piece : Str) :
    A.density nz ny nx volume piece =
      density nz ny nx 1 piece >>= fun g => if volume = 0 then .raise .outOfModel else .ok (mapGrid (fun v => A.div (A.read v) volume) g) := by
  unfold Machine.density density
  cases Res.mapM' toNumber (words (cut c!"augmentation occupancies" piece).1) with
  | exit c => rfl
  | raise e => rfl
  | ok xs =>
    simp only [Res.ok_bind]
    split
    · rw [if_neg one_ne_zero, Res.ok_bind]
      split
      · rfl
      · simp [mapGrid, List.map_map, Function.comp_def]
    · rfl

theorem machine_density_iff (A : Machine) {nx ny nz : Nat} {volume : Rat} {piece : Str} {g : Grid} :
    A.density nz ny nx volume piece = .ok g ↔ volume ≠ 0 ∧ IsGridOf nx ny nz (fun v => A.div (A.read v) volume) piece g := by
  rw [machine_density, Res.bind_eq_ok]
  simp only [density_iff]
  constructor
  · rintro ⟨g0, ⟨_, t, xs, h1, h2, h3, h4, h5, h6⟩, hg⟩
    split at hg
    · cases hg
    · rename_i hv
      cases hg
      have hs := (mapGrid_shape (fun v => A.div (A.read v) volume) g0 nx ny nz).2 ⟨h4, h5⟩
      refine ⟨hv, t, xs, h1, h2, h3, hs.1, hs.2, fun x y z hx hy hz => ?_⟩
      obtain ⟨v, hv1, hv2⟩ := h6 x y z hx hy hz
      refine ⟨v, hv1, ?_⟩
      rw [at3_mapGrid, hv2]
      simp
  · rintro ⟨hv, t, xs, h1, h2, h3, h4, h5, h6⟩
    have hl' : xs.length = nx * ny * nz := h3
    have h7 := arrange_spec nz ny nx 1 xs h3
    refine ⟨arrange nz ny nx 1 xs, ⟨one_ne_zero, t, xs, h1, h2, h3, h7⟩, ?_⟩
    rw [if_neg hv]
    congr 1
    have hs := (mapGrid_shape (fun v => A.div (A.read v) volume) (arrange nz ny nx 1 xs) nx ny nz).2 ⟨h7.1, h7.2.1⟩
    generalize hG : mapGrid (fun v => A.div (A.read v) volume) (arrange nz ny nx 1 xs) = G at hs
    have h6' : ∀ x y z, x < nx → y < ny → z < nz → ∃ v, xs[x + nx * (y + ny * z)]? = some v ∧ at3 G z y x = some (A.div (A.read v) volume) := by
      intro x y z hx hy hz
      obtain ⟨v, hv1, hv2⟩ := h7.2.2 x y z hx hy hz
      refine ⟨v, hv1, ?_⟩
      rw [← hG, at3_mapGrid, hv2]
      simp
    apply list_ext (by rw [hs.1, h4])
    intro z p q hz hz'
    have hzn : z < nz := hs.1 ▸ (List.getElem?_eq_some_iff.1 hz).1
    have hp := hs.2 p (List.mem_of_getElem? hz)
    have hq := h5 q (List.mem_of_getElem? hz')
    apply list_ext (by rw [hp.1, hq.1])
    intro y r s hy hy'
    have hyn : y < ny := hp.1 ▸ (List.getElem?_eq_some_iff.1 hy).1
    have hr := hp.2 r (List.mem_of_getElem? hy)
    have hs' := hq.2 s (List.mem_of_getElem? hy')
    apply list_ext (by rw [hr, hs'])
    intro x a b hxa hxb
    have hxn : x < nx := hr ▸ (List.getElem?_eq_some_iff.1 hxa).1
    obtain ⟨v, hv, ha⟩ := h6' x y z hxn hyn hzn
    obtain ⟨v', hv', hb⟩ := h6 x y z hxn hyn hzn
    rw [hv] at hv'; cases hv'
    unfold at3 at ha hb
    rw [hz, Option.bind_some, hy, Option.bind_some, hxa] at ha
    rw [hz', Option.bind_some, hy', Option.bind_some, hxb] at hb
    cases ha; cases hb; rfl

theorem machine_magnetization_iff (A : Machine) {nx ny nz : Nat} {volume : Rat} (hv : volume ≠ 0) {pieces : List Str} {m : Magnetization} :
    A.magnetization nz ny nx volume pieces = .ok m ↔ IsMagnetizationOf nx ny nz (fun v => A.div (A.read v) volume) pieces m := by
  have one : ∀ a b, A.magnetization nz ny nx volume [a, b] = .ok m ↔ IsMagnetizationOf nx ny nz (fun v => A.div (A.read v) volume) [a, b] m := by
    intro a b
    show (A.density nz ny nx volume b >>= fun g => .ok (.collinear g)) = .ok m ↔ _
    rw [Res.bind_eq_ok]
    simp only [machine_density_iff, Res.ok.injEq]
    constructor
    · rintro ⟨g, ⟨_, hg⟩, rfl⟩; exact ⟨a, b, rfl, hg⟩
    · intro h
      cases m with
      | none => exact absurd rfl h.1
      | collinear g => obtain ⟨a', b', he, hg⟩ := h; cases he; exact ⟨g, ⟨hv, hg⟩, rfl⟩
      | components x y z => obtain ⟨_, _, _, _, he, _⟩ := h; cases he
  have three : ∀ a b c d, A.magnetization nz ny nx volume [a, b, c, d] = .ok m ↔
      IsMagnetizationOf nx ny nz (fun v => A.div (A.read v) volume) [a, b, c, d] m := by
    intro a b c d
    show (A.density nz ny nx volume b >>= fun x => A.density nz ny nx volume c >>= fun y => A.density nz ny nx volume d >>= fun z =>
      .ok (.components x y z)) = .ok m ↔ _
    simp only [Res.bind_eq_ok, machine_density_iff, Res.ok.injEq]
    constructor
    · rintro ⟨x, ⟨_, hx⟩, y, ⟨_, hy⟩, z, ⟨_, hz⟩, rfl⟩; exact ⟨a, b, c, d, rfl, hx, hy, hz⟩
    · intro h
      cases m with
      | none => exact absurd rfl h.2
      | collinear g => obtain ⟨_, _, he, _⟩ := h; cases he
      | components x y z => obtain ⟨_, _, _, _, he, hx, hy, hz⟩ := h; cases he; exact ⟨x, ⟨hv, hx⟩, y, ⟨hv, hy⟩, z, ⟨hv, hz⟩, rfl⟩
  have other : pieces.length ≠ 2 → pieces.length ≠ 4 → A.magnetization nz ny nx volume pieces = .ok .none →
      (A.magnetization nz ny nx volume pieces = .ok m ↔ IsMagnetizationOf nx ny nz (fun v => A.div (A.read v) volume) pieces m) := by
    intro h2 h4 he
    rw [he]
    cases m with
    | none => exact ⟨fun _ => ⟨h2, h4⟩, fun _ => rfl⟩
    | collinear g => exact ⟨fun h => (by cases h), by rintro ⟨_, _, rfl, _⟩; exact absurd rfl h2⟩
    | components x y z => exact ⟨fun h => (by cases h), by rintro ⟨_, _, _, _, rfl, _⟩; exact absurd rfl h4⟩
  match pieces, other with
  | [a, b], _ => exact one a b
  | [a, b, c, d], _ => exact three a b c d
  | [], other => exact other (by simp) (by simp) rfl
  | [_], other => exact other (by simp) (by simp) rfl
  | [_, _, _], other => exact other (by simp) (by simp) rfl
  | _ :: _ :: _ :: _ :: _ :: _, other => exact other (by simp) (by simp) rfl

/-- **C146**, what is computed: with any arithmetic a text is accepted exactly if it is a CHGCAR whose data sets fill its grid and the computed volume is not
zero, and the value at z, y, x is computed from the number printed for that point and the volume alone. -/
theorem C146_grid (A : Machine) (text : Str) (d : Data) : A.init none (some text) = .ok d ↔
    ∃ (scale : Rat) (cell : M3 Rat) (nx ny nz : Nat) (pieces : List Str) (p : Str), File text scale cell nx ny nz pieces ∧
      machineVolume A scale cell ≠ 0 ∧ pieces.head? = some p ∧
      IsGridOf nx ny nz (fun v => A.div (A.read v) (machineVolume A scale cell)) p d.total ∧
      IsMagnetizationOf nx ny nz (fun v => A.div (A.read v) (machineVolume A scale cell)) pieces d.magnetization := by
  show A.fromText text = .ok d ↔ _
  have hnn : (c!"\n\n" : Str) ≠ [] := by decide
  have hn : (c!"\n" : Str) ≠ [] := by decide
  constructor
  · intro h
    unfold Machine.fromText at h
    obtain ⟨rest, hrest, h⟩ := Res.bind_eq_ok.1 h
    obtain ⟨s, hs, h⟩ := Res.bind_eq_ok.1 h
    obtain ⟨t, ht, h⟩ := Res.bind_eq_ok.1 h
    obtain ⟨a, ha, h⟩ := Res.bind_eq_ok.1 h
    obtain ⟨b, hb, h⟩ := Res.bind_eq_ok.1 h
    obtain ⟨c, hc, h⟩ := Res.bind_eq_ok.1 h
    obtain ⟨body, hbody, h⟩ := Res.bind_eq_ok.1 h
    obtain ⟨ngf, hngf, h⟩ := Res.bind_eq_ok.1 h
    have sec : ∀ (p : Str) (s r : Str), p ≠ [] → second (cut p s) = .ok r → FirstAt p s (cut p s).1 r := by
      intro p s r hp h
      unfold second at h
      cases hcut : (cut p s).2 with
      | none => rw [hcut] at h; cases h
      | some q => rw [hcut] at h; cases h; exact (cut_some hp).1 (Prod.ext rfl hcut)
    have f1 := sec _ _ _ hnn hrest
    have f2 := sec _ _ _ hn hbody
    rw [idx_iff] at hs
    rw [Doscar.toFloat_iff] at ht
    rw [machine_readVector_iff] at ha hb hc
    obtain ⟨la, va, ha1, ha2, rfl⟩ := ha
    obtain ⟨lb, vb, hb1, hb2, rfl⟩ := hb
    obtain ⟨lc, vc, hc1, hc2, rfl⟩ := hc
    rw [ints_iff] at hngf
    match ngf, hngf, h with
    | [nx, ny, nz], hngf, h =>
      simp only at h
      split at h
      · cases h
      · rename_i hneg
        obtain ⟨p0, hp0, h⟩ := Res.bind_eq_ok.1 h
        obtain ⟨total, htotal, h⟩ := Res.bind_eq_ok.1 h
        obtain ⟨m, hm, h⟩ := Res.bind_eq_ok.1 h
        cases h
        rw [machine_density_iff] at htotal
        rw [machine_magnetization_iff A htotal.1] at hm
        rw [idx_iff] at hp0
        have hg : (cut c!"\n" rest).1 ≠ [] := by
          intro h0
          rw [h0] at hngf
          cases hngf
        refine ⟨t, ⟨va, vb, vc⟩, nx.toNat, ny.toNat, nz.toNat, _, p0, ⟨_, rest, _, body, s, la, lb, lc, f1, f2, hs, ht, ha1, ha2, hb1, hb2,
          hc1, hc2, ?_, (splitStr_iff hg _ _ _ le_rfl).1 rfl⟩, htotal.1, by rw [List.head?_eq_getElem?]; exact hp0, htotal.2, hm⟩
        have e1 : ((nx.toNat : Nat) : Int) = nx := by omega
        have e2 : ((ny.toNat : Nat) : Int) = ny := by omega
        have e3 : ((nz.toNat : Nat) : Int) = nz := by omega
        rw [e1, e2, e3]
        exact hngf
    | [], _, h => cases h
    | [_], _, h => cases h
    | [_, _], _, h => cases h
    | _ :: _ :: _ :: _ :: _, _, h => cases h
  · rintro ⟨t, ⟨va, vb, vc⟩, nx, ny, nz, pieces, p, ⟨header, rest, grid, body, l1, l2, l3, l4, f1, f2, hs, ht, ha1, ha2, hb1, hb2, hc1, hc2,
      hi, hps⟩, hv, hp, hd, hm⟩
    unfold Machine.fromText
    rw [(cut_some hnn).2 f1]
    simp only [second, Res.ok_bind]
    rw [(idx_iff _ _ _).2 hs, Res.ok_bind, (Doscar.toFloat_iff _ _).2 ht, Res.ok_bind,
      (machine_readVector_iff A _ _ _ _).2 ⟨l2, va, ha1, ha2, rfl⟩, Res.ok_bind, (machine_readVector_iff A _ _ _ _).2 ⟨l3, vb, hb1, hb2, rfl⟩, Res.ok_bind,
      (machine_readVector_iff A _ _ _ _).2 ⟨l4, vc, hc1, hc2, rfl⟩, Res.ok_bind, (cut_some hn).2 f2]
    simp only [second, Res.ok_bind]
    have hg : grid ≠ [] := by rintro rfl; cases hi
    rw [(ints_iff _ _).2 hi, Res.ok_bind]
    simp only
    rw [if_neg (by omega), (splitStr_iff hg _ _ _ le_rfl).2 hps, (idx_iff _ _ _).2 (by rw [← List.head?_eq_getElem?]; exact hp),
      Res.ok_bind]
    simp only [Int.toNat_natCast]
    have hv' : A.dot (machineVector A t va) (A.cross (machineVector A t vb) (machineVector A t vc)) ≠ 0 := hv
    rw [(machine_density_iff A).2 ⟨hv', hd⟩, Res.ok_bind, (machine_magnetization_iff A hv').2 hm, Res.ok_bind]

/-- With exact arithmetic it is the model of the other modules. -/
theorem exact_fromText (text : Str) : Machine.exact.fromText text = fromText text := rfl

end Verif.Chgcar
