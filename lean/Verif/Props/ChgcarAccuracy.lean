import Verif.Props.ChgcarMachine
import Mathlib.Tactic.FieldSimp
/-! # CHGCAR with machine arithmetic: how accurate the densities are (C146) -/
set_option autoImplicit false
namespace Verif.Chgcar
open Verif Verif.Utils
open Verif.Lattice (V3 M3)
open Verif.Eigenval (Numbers at3)

/-! ### specification -/

/-- Operations with relative error `u` (scalar products: relative error `d` of the sum of the absolute values) where the exact result is in the normal range
of the machine. `val` holds for the machine numbers. -/
structure Accurate (A : Machine) (u d : Rat) (normal val : Rat → Prop) : Prop where
  u_nonneg : 0 ≤ u
  d_nonneg : 0 ≤ d
  num : ∀ r, normal r → val (A.num r) ∧ |A.num r - r| ≤ u * |r|
  read : ∀ r, normal r → val (A.read r) ∧ |A.read r - r| ≤ u * |r|
  mul : ∀ x y, normal (x * y) → val (A.mul x y) ∧ |A.mul x y - x * y| ≤ u * |x * y|
  sub : ∀ x y, normal (x - y) → val (A.sub x y) ∧ |A.sub x y - (x - y)| ≤ u * |x - y|
  div : ∀ x y, y ≠ 0 → normal (x / y) → |A.div x y - x / y| ≤ u * |x / y|
  dot : ∀ v w : V3 Rat, val v.x → val v.y → val v.z → val w.x → val w.y → val w.z →
    normal (2 * (|v.x * w.x| + |v.y * w.y| + |v.z * w.z|)) → |A.dot v w - v.dot w| ≤ d * (|v.x * w.x| + |v.y * w.y| + |v.z * w.z|)

/-- Everything computed on the way to the components of a vector. -/
structure VectorNormal (A : Machine) (normal : Rat → Prop) (scale : Rat) (v : V3 Rat) : Prop where
  x : normal v.x
  y : normal v.y
  z : normal v.z
  sx : normal (A.num scale * A.num v.x)
  sy : normal (A.num scale * A.num v.y)
  sz : normal (A.num scale * A.num v.z)

/-- Everything computed on the way to a component of a vector product. -/
structure MinorNormal (A : Machine) (normal : Rat → Prop) (p q r s : Rat) : Prop where
  left : normal (p * q)
  right : normal (r * s)
  sub : normal (A.mul p q - A.mul r s)

/-- Everything computed on the way to the volume of a cell stays in the normal range: no overflow and no underflow. -/
structure CellNormal (A : Machine) (normal : Rat → Prop) (scale : Rat) (cell : M3 Rat) : Prop where
  factor : normal scale
  a : VectorNormal A normal scale cell.a
  b : VectorNormal A normal scale cell.b
  c : VectorNormal A normal scale cell.c
  x : MinorNormal A normal (machineVector A scale cell.b).y (machineVector A scale cell.c).z (machineVector A scale cell.b).z (machineVector A scale cell.c).y
  y : MinorNormal A normal (machineVector A scale cell.b).z (machineVector A scale cell.c).x (machineVector A scale cell.b).x (machineVector A scale cell.c).z
  z : MinorNormal A normal (machineVector A scale cell.b).x (machineVector A scale cell.c).y (machineVector A scale cell.b).y (machineVector A scale cell.c).x
  dot : let v := machineVector A scale cell.a; let w := A.cross (machineVector A scale cell.b) (machineVector A scale cell.c)
    normal (2 * (|v.x * w.x| + |v.y * w.y| + |v.z * w.z|))

/-- The triple product with all signs taken as plus: the sum of the absolute values of its six terms. -/
def absTriple (scale : Rat) (cell : M3 Rat) : Rat :=
  |scale| ^ 3 * (|cell.a.x| * (|cell.b.y| * |cell.c.z| + |cell.b.z| * |cell.c.y|) + |cell.a.y| * (|cell.b.z| * |cell.c.x| + |cell.b.x| * |cell.c.z|) +
    |cell.a.z| * (|cell.b.x| * |cell.c.y| + |cell.b.y| * |cell.c.x|))

/-! ### error analysis -/

/-- `y` is an approximation of `x` up to the factor `g`, relative to `m`, which is at least `|x|`. -/
structure Near (g m y x : Rat) : Prop where
  one : 1 ≤ g
  bound : |x| ≤ m
  err : |y - x| ≤ (g - 1) * m

theorem Near.size {g m y x : Rat} (h : Near g m y x) : |y| ≤ g * m := by
  have := abs_add_le (y - x) x
  rw [sub_add_cancel] at this
  have h1 := h.err
  have h2 := h.bound
  linarith

theorem Near.m_nonneg {g m y x : Rat} (h : Near g m y x) : 0 ≤ m := (abs_nonneg x).trans h.bound

theorem Near.of_rel {u x y : Rat} (hu : 0 ≤ u) (h : |y - x| ≤ u * |x|) : Near (1 + u) |x| y x := ⟨by linarith, le_rfl, by linarith⟩

theorem Near.round {g m y x r u : Rat} (h : Near g m y x) (hu : 0 ≤ u) (hr : |r - y| ≤ u * |y|) : Near (g * (1 + u)) m r x := by
  have hm := h.m_nonneg
  refine ⟨by nlinarith [h.one], h.bound, ?_⟩
  have h1 := abs_add_le (r - y) (y - x)
  rw [sub_add_sub_cancel] at h1
  have h2 := mul_le_mul_of_nonneg_left h.size hu
  have h3 := h.err
  calc |r - x| ≤ |r - y| + |y - x| := h1
    _ ≤ u * (g * m) + (g - 1) * m := by linarith
    _ = (g * (1 + u) - 1) * m := by ring

theorem Near.mul {g1 m1 y1 x1 g2 m2 y2 x2 : Rat} (h : Near g1 m1 y1 x1) (k : Near g2 m2 y2 x2) : Near (g1 * g2) (m1 * m2) (y1 * y2) (x1 * x2) := by
  have hm1 := h.m_nonneg
  have hm2 := k.m_nonneg
  refine ⟨by nlinarith [h.one, k.one], ?_, ?_⟩
  · rw [abs_mul]; exact mul_le_mul h.bound k.bound (abs_nonneg _) hm1
  · have e : y1 * y2 - x1 * x2 = y1 * (y2 - x2) + (y1 - x1) * x2 := by ring
    have h1 := abs_add_le (y1 * (y2 - x2)) ((y1 - x1) * x2)
    rw [abs_mul, abs_mul, ← e] at h1
    have h2 : |y1| * |y2 - x2| ≤ (g1 * m1) * ((g2 - 1) * m2) :=
      mul_le_mul h.size k.err (abs_nonneg _) (mul_nonneg (by linarith [h.one]) hm1)
    have h3 : |y1 - x1| * |x2| ≤ ((g1 - 1) * m1) * m2 :=
      mul_le_mul h.err k.bound (abs_nonneg _) (mul_nonneg (by linarith [h.one]) hm1)
    calc |y1 * y2 - x1 * x2| ≤ (g1 * m1) * ((g2 - 1) * m2) + ((g1 - 1) * m1) * m2 := by linarith
      _ = (g1 * g2 - 1) * (m1 * m2) := by ring

theorem Near.add {g m1 y1 x1 m2 y2 x2 : Rat} (h : Near g m1 y1 x1) (k : Near g m2 y2 x2) : Near g (m1 + m2) (y1 + y2) (x1 + x2) := by
  refine ⟨h.one, (abs_add_le _ _).trans (add_le_add h.bound k.bound), ?_⟩
  have e : y1 + y2 - (x1 + x2) = (y1 - x1) + (y2 - x2) := by ring
  rw [e]
  have := abs_add_le (y1 - x1) (y2 - x2)
  have h1 := h.err
  have h2 := k.err
  linarith

theorem Near.sub {g m1 y1 x1 m2 y2 x2 : Rat} (h : Near g m1 y1 x1) (k : Near g m2 y2 x2) : Near g (m1 + m2) (y1 - y2) (x1 - x2) := by
  have k' : Near g m2 (-y2) (-x2) := ⟨k.one, by rw [abs_neg]; exact k.bound, by rw [show -y2 - -x2 = -(y2 - x2) by ring, abs_neg]; exact k.err⟩
  have := h.add k'
  simpa [sub_eq_add_neg] using this

variable {A : Machine} {u d : Rat} {normal val : Rat → Prop}

/-- One component of a scaled lattice vector. -/
theorem near_component (h : Accurate A u d normal val) {scale x : Rat} (hs : normal scale) (hx : normal x) (hp : normal (A.num scale * A.num x)) :
    val (A.mul (A.num scale) (A.num x)) ∧ Near ((1 + u) ^ 3) (|scale| * |x|) (A.mul (A.num scale) (A.num x)) (scale * x) := by
  obtain ⟨h1, h2⟩ := h.mul _ _ hp
  refine ⟨h1, ?_⟩
  have := ((Near.of_rel h.u_nonneg (h.num _ hs).2).mul (Near.of_rel h.u_nonneg (h.num _ hx).2)).round h.u_nonneg h2
  rwa [show (1 + u) * (1 + u) * (1 + u) = (1 + u) ^ 3 by ring] at this

/-- One component of the vector product. -/
theorem near_minor (h : Accurate A u d normal val) {g : Rat} {p q r s p' q' r' s' mp mq mr ms : Rat} (hn : MinorNormal A normal p q r s)
    (hp : Near g mp p p') (hq : Near g mq q q') (hr : Near g mr r r') (hs : Near g ms s s') :
    val (A.sub (A.mul p q) (A.mul r s)) ∧
      Near (g * g * (1 + u) * (1 + u)) (mp * mq + mr * ms) (A.sub (A.mul p q) (A.mul r s)) (p' * q' - r' * s') := by
  obtain ⟨_, h1⟩ := h.mul _ _ hn.left
  obtain ⟨_, h2⟩ := h.mul _ _ hn.right
  obtain ⟨v, h3⟩ := h.sub _ _ hn.sub
  exact ⟨v, (((hp.mul hq).round h.u_nonneg h1).sub ((hr.mul hs).round h.u_nonneg h2)).round h.u_nonneg h3⟩

/-- **C146**, the volume: the computed volume differs from the exact triple product of the scaled lattice vectors by at most
`(1 + u)^11 (1 + d) - 1` times the sum of the absolute values of the six terms of the triple product. -/
theorem C146_volume (h : Accurate A u d normal val) (scale : Rat) (cell : M3 Rat) (hn : CellNormal A normal scale cell) :
    |machineVolume A scale cell - scale ^ 3 * cell.det| ≤ ((1 + u) ^ 11 * (1 + d) - 1) * absTriple scale cell := by
  obtain ⟨ns, ⟨a1, a2, a3, a4, a5, a6⟩, ⟨b1, b2, b3, b4, b5, b6⟩, ⟨c1, c2, c3, c4, c5, c6⟩, nx, ny, nz, nd⟩ := hn
  obtain ⟨vax, hax⟩ := near_component h ns a1 a4
  obtain ⟨vay, hay⟩ := near_component h ns a2 a5
  obtain ⟨vaz, haz⟩ := near_component h ns a3 a6
  obtain ⟨_, hbx⟩ := near_component h ns b1 b4
  obtain ⟨_, hby⟩ := near_component h ns b2 b5
  obtain ⟨_, hbz⟩ := near_component h ns b3 b6
  obtain ⟨_, hcx⟩ := near_component h ns c1 c4
  obtain ⟨_, hcy⟩ := near_component h ns c2 c5
  obtain ⟨_, hcz⟩ := near_component h ns c3 c6
  obtain ⟨vwx, hwx⟩ := near_minor h nx hby hcz hbz hcy
  obtain ⟨vwy, hwy⟩ := near_minor h ny hbz hcx hbx hcz
  obtain ⟨vwz, hwz⟩ := near_minor h nz hbx hcy hby hcx
  have hd := h.dot (machineVector A scale cell.a) (A.cross (machineVector A scale cell.b) (machineVector A scale cell.c)) vax vay vaz vwx vwy vwz nd
  have hx := hax.mul hwx
  have hy := hay.mul hwy
  have hz := haz.mul hwz
  have hsum := (hx.add hy).add hz
  have size := add_le_add (add_le_add hx.size hy.size) hz.size
  have eG : (1 + u) ^ 3 * ((1 + u) ^ 3 * (1 + u) ^ 3 * (1 + u) * (1 + u)) = (1 + u) ^ 11 := by ring
  rw [eG] at hsum size
  have eM : |scale| * |cell.a.x| * (|scale| * |cell.b.y| * (|scale| * |cell.c.z|) + |scale| * |cell.b.z| * (|scale| * |cell.c.y|)) +
      |scale| * |cell.a.y| * (|scale| * |cell.b.z| * (|scale| * |cell.c.x|) + |scale| * |cell.b.x| * (|scale| * |cell.c.z|)) +
      |scale| * |cell.a.z| * (|scale| * |cell.b.x| * (|scale| * |cell.c.y|) + |scale| * |cell.b.y| * (|scale| * |cell.c.x|)) = absTriple scale cell := by
    unfold absTriple; ring
  have eV : scale * cell.a.x * (scale * cell.b.y * (scale * cell.c.z) - scale * cell.b.z * (scale * cell.c.y)) +
      scale * cell.a.y * (scale * cell.b.z * (scale * cell.c.x) - scale * cell.b.x * (scale * cell.c.z)) +
      scale * cell.a.z * (scale * cell.b.x * (scale * cell.c.y) - scale * cell.b.y * (scale * cell.c.x)) = scale ^ 3 * cell.det := by
    unfold M3.det; ring
  rw [eM, eV] at hsum
  rw [← mul_add, ← mul_add, eM] at size
  have e1 := hsum.err
  have hd' : |machineVolume A scale cell - (machineVector A scale cell.a).dot (A.cross (machineVector A scale cell.b) (machineVector A scale cell.c))| ≤
      d * ((1 + u) ^ 11 * absTriple scale cell) := hd.trans (mul_le_mul_of_nonneg_left size h.d_nonneg)
  have tri := abs_add_le (machineVolume A scale cell - (machineVector A scale cell.a).dot (A.cross (machineVector A scale cell.b) (machineVector A scale cell.c)))
    ((machineVector A scale cell.a).dot (A.cross (machineVector A scale cell.b) (machineVector A scale cell.c)) - scale ^ 3 * cell.det)
  rw [sub_add_sub_cancel] at tri
  have e2 : |(machineVector A scale cell.a).dot (A.cross (machineVector A scale cell.b) (machineVector A scale cell.c)) - scale ^ 3 * cell.det| ≤
      ((1 + u) ^ 11 - 1) * absTriple scale cell := e1
  calc _ ≤ _ := tri
    _ ≤ d * ((1 + u) ^ 11 * absTriple scale cell) + ((1 + u) ^ 11 - 1) * absTriple scale cell := add_le_add hd' e2
    _ = _ := by ring

/-- One quotient. -/
theorem near_quotient (h : Accurate A u d normal val) {v V W ε : Rat} (hv : normal v) (hV : V ≠ 0) (hε0 : 0 ≤ ε) (hε : ε < 1) (hW : |W - V| ≤ ε * |V|)
    (hq : normal (A.read v / W)) : W ≠ 0 ∧ |A.div (A.read v) W - v / V| ≤ ((1 + u) ^ 2 / (1 - ε) - 1) * |v / V| := by
  have hVp : 0 < |V| := abs_pos.2 hV
  have h1ε : 0 < 1 - ε := by linarith
  have hWl : (1 - ε) * |V| ≤ |W| := by
    have := abs_add_le (V - W) W
    rw [sub_add_cancel, abs_sub_comm] at this
    linarith
  have hWp : 0 < |W| := lt_of_lt_of_le (mul_pos h1ε hVp) hWl
  have hW0 : W ≠ 0 := abs_pos.1 hWp
  refine ⟨hW0, ?_⟩
  obtain ⟨_, hr⟩ := h.read _ hv
  have hdv := h.div _ _ hW0 hq
  -- V / W
  have hVW : |V / W| ≤ 1 / (1 - ε) := by
    rw [abs_div, div_le_div_iff₀ hWp h1ε]
    linarith
  have hVW1 : |V / W - 1| ≤ ε / (1 - ε) := by
    have : V / W - 1 = (V - W) / W := by field_simp
    rw [this, abs_div, div_le_div_iff₀ hWp h1ε, abs_sub_comm]
    have := mul_le_mul_of_nonneg_right hW h1ε.le
    have h2 := mul_le_mul_of_nonneg_left hWl hε0
    nlinarith
  have n1 : Near (1 / (1 - ε)) 1 (V / W) 1 := by
    refine ⟨?_, by simp, ?_⟩
    · rw [le_div_iff₀ h1ε]; linarith
    · have : 1 / (1 - ε) - 1 = ε / (1 - ε) := by field_simp; ring
      rw [this, mul_one]; exact hVW1
  have n2 : Near (1 + u) |v / V| (A.read v / V) (v / V) := by
    refine Near.of_rel h.u_nonneg ?_
    rw [← sub_div, abs_div, abs_div, ← mul_div_assoc]
    exact div_le_div_of_nonneg_right hr hVp.le
  have n3 := (n2.mul n1)
  have e : A.read v / V * (V / W) = A.read v / W := by field_simp
  rw [e, mul_one, mul_one] at n3
  have n4 := (n3.round h.u_nonneg hdv).err
  calc _ ≤ _ := n4
    _ = _ := by ring

/-- Every number printed in the data sets, and its quotient, is in the normal range. -/
def DataNormal (A : Machine) (normal : Rat → Prop) (volume : Rat) (pieces : List Str) : Prop :=
  ∀ p ∈ pieces, ∀ t xs, Before c!"augmentation occupancies" p t → Numbers (words t) xs → ∀ v ∈ xs, normal v ∧ normal (A.read v / volume)

/-- Two grids of the same shape whose numbers differ by at most `r` times the second. -/
structure CloseGrid (r : Rat) (g h : Grid) : Prop where
  planes : g.length = h.length
  rows : ∀ (z : Nat) (p q : List (List Rat)), g[z]? = some p → h[z]? = some q → p.length = q.length ∧
    ∀ (y : Nat) (a b : List Rat), p[y]? = some a → q[y]? = some b → a.length = b.length
  numbers : ∀ (z y x : Nat) (v w : Rat), at3 g z y x = some v → at3 h z y x = some w → |v - w| ≤ r * |w|

/-- Likewise for the magnetization. -/
def CloseMagnetization (r : Rat) : Magnetization → Magnetization → Prop
  | .none, .none => True
  | .collinear g, .collinear h => CloseGrid r g h
  | .components a b c, .components a' b' c' => CloseGrid r a a' ∧ CloseGrid r b b' ∧ CloseGrid r c c'
  | _, _ => False

theorem close_grid (h : Accurate A u d normal val) {nx ny nz : Nat} {V W ε : Rat} {piece : Str} {g : Grid} (hV : V ≠ 0) (hε0 : 0 ≤ ε) (hε : ε < 1)
    (hW : |W - V| ≤ ε * |V|) (hn : ∀ t xs, Before c!"augmentation occupancies" piece t → Numbers (words t) xs → ∀ v ∈ xs, normal v ∧ normal (A.read v / W))
    (hg : IsDensity nx ny nz V piece g) :
    ∃ g', IsGridOf nx ny nz (fun v => A.div (A.read v) W) piece g' ∧ CloseGrid ((1 + u) ^ 2 / (1 - ε) - 1) g' g := by
  obtain ⟨t, xs, h1, h2, h3, h4, h5, h6⟩ := hg
  have h7 := arrange_spec nz ny nx 1 xs h3
  generalize arrange nz ny nx 1 xs = g1 at h7
  have hs := (mapGrid_shape (fun v => A.div (A.read v) W) g1 nx ny nz).2 ⟨h7.1, h7.2.1⟩
  have hv : ∀ x y z, x < nx → y < ny → z < nz →
      ∃ v, xs[x + nx * (y + ny * z)]? = some v ∧ at3 (mapGrid (fun v => A.div (A.read v) W) g1) z y x = some (A.div (A.read v) W) := by
    intro x y z hx hy hz
    obtain ⟨v, hv1, hv2⟩ := h7.2.2 x y z hx hy hz
    refine ⟨v, hv1, ?_⟩
    rw [at3_mapGrid, hv2]
    simp
  generalize mapGrid (fun v => A.div (A.read v) W) g1 = G at hs hv
  refine ⟨G, ⟨t, xs, h1, h2, h3, hs.1, hs.2, hv⟩, ⟨by rw [hs.1, h4], ?_, ?_⟩⟩
  · intro z p q hp hq
    have e1 := hs.2 p (List.mem_of_getElem? hp)
    have e2 := h5 q (List.mem_of_getElem? hq)
    refine ⟨by rw [e1.1, e2.1], fun y a b ha hb => ?_⟩
    rw [e1.2 a (List.mem_of_getElem? ha), e2.2 b (List.mem_of_getElem? hb)]
  · intro z y x v w hgv hgw
    have hzyx : x < nx ∧ y < ny ∧ z < nz := by
      unfold at3 at hgw
      obtain ⟨r, hgr, hgw⟩ := Option.bind_eq_some_iff.1 hgw
      obtain ⟨p, hp, hr⟩ := Option.bind_eq_some_iff.1 hgr
      have e2 := h5 p (List.mem_of_getElem? hp)
      refine ⟨?_, ?_, ?_⟩
      · rw [← e2.2 r (List.mem_of_getElem? hr)]; exact (List.getElem?_eq_some_iff.1 hgw).1
      · rw [← e2.1]; exact (List.getElem?_eq_some_iff.1 hr).1
      · rw [← h4]; exact (List.getElem?_eq_some_iff.1 hp).1
    obtain ⟨n1, e1, e2⟩ := hv x y z hzyx.1 hzyx.2.1 hzyx.2.2
    obtain ⟨n2, e3, e4⟩ := h6 x y z hzyx.1 hzyx.2.1 hzyx.2.2
    rw [e1] at e3; cases e3
    rw [e2] at hgv; cases hgv
    rw [e4] at hgw; cases hgw
    obtain ⟨k1, k2⟩ := hn t xs h1 h2 n1 (List.mem_of_getElem? e1)
    exact (near_quotient h k1 hV hε0 hε hW k2).2

/-- **C146**, accuracy: a text accepted with exact arithmetic whose cell is not too flat, `((1 + u)^11 (1 + d) - 1) absTriple ≤ ε |triple product|` with
`ε < 1`, is accepted with machine arithmetic if no number leaves the normal range, and all densities have a relative error of at most
`(1 + u)^2 / (1 - ε) - 1`. -/
theorem C146_accuracy (h : Accurate A u d normal val) (text : Str) (D : Data) (hD : init none (some text) = .ok D) (ε : Rat) (hε : ε < 1)
    (hn : ∀ scale cell nx ny nz pieces, File text scale cell nx ny nz pieces → CellNormal A normal scale cell ∧
      DataNormal A normal (machineVolume A scale cell) pieces ∧
      ((1 + u) ^ 11 * (1 + d) - 1) * absTriple scale cell ≤ ε * |scale ^ 3 * cell.det|) :
    ∃ D', A.init none (some text) = .ok D' ∧ CloseGrid ((1 + u) ^ 2 / (1 - ε) - 1) D'.total D.total ∧
      CloseMagnetization ((1 + u) ^ 2 / (1 - ε) - 1) D'.magnetization D.magnetization := by
  obtain ⟨scale, cell, nx, ny, nz, pieces, p, hf, hV, hp, hd, hm⟩ := (C41_grid_partial text D).1 hD
  obtain ⟨n1, n2, n3⟩ := hn _ _ _ _ _ _ hf
  have hW := (C146_volume h scale cell n1).trans n3
  have hε0 : 0 ≤ ε := by
    by_contra hc
    have h1 := (abs_nonneg _).trans hW
    have h2 : 0 < |scale ^ 3 * cell.det| := abs_pos.2 hV
    have h3 := mul_neg_of_neg_of_pos (not_le.1 hc) h2
    linarith
  have hVp : 0 < |scale ^ 3 * cell.det| := abs_pos.2 hV
  have hW0 : machineVolume A scale cell ≠ 0 := by
    intro h0
    rw [h0, zero_sub, abs_neg] at hW
    nlinarith
  have one : ∀ q ∈ pieces, ∀ g, IsDensity nx ny nz (scale ^ 3 * cell.det) q g →
      ∃ g', IsGridOf nx ny nz (fun v => A.div (A.read v) (machineVolume A scale cell)) q g' ∧ CloseGrid ((1 + u) ^ 2 / (1 - ε) - 1) g' g :=
    fun q hq g hg => close_grid h hV hε0 hε hW (n2 q hq) hg
  obtain ⟨g', hg1, hg2⟩ := one p (List.mem_of_head? hp) _ hd
  have mag : ∃ m, IsMagnetizationOf nx ny nz (fun v => A.div (A.read v) (machineVolume A scale cell)) pieces m ∧
      CloseMagnetization ((1 + u) ^ 2 / (1 - ε) - 1) m D.magnetization := by
    cases hDm : D.magnetization with
    | none => rw [hDm] at hm; exact ⟨.none, hm, trivial⟩
    | collinear g =>
      rw [hDm] at hm
      obtain ⟨a, b, rfl, hb⟩ := hm
      obtain ⟨k, k1, k2⟩ := one b (by simp) _ hb
      exact ⟨.collinear k, ⟨a, b, rfl, k1⟩, k2⟩
    | components x y z =>
      rw [hDm] at hm
      obtain ⟨a, b, c, e, rfl, hb, hc, he⟩ := hm
      obtain ⟨k, k1, k2⟩ := one b (by simp) _ hb
      obtain ⟨l, l1, l2⟩ := one c (by simp) _ hc
      obtain ⟨o, o1, o2⟩ := one e (by simp) _ he
      exact ⟨.components k l o, ⟨a, b, c, e, rfl, k1, l1, o1⟩, k2, l2, o2⟩
  obtain ⟨m, m1, m2⟩ := mag
  exact ⟨⟨g', m⟩, (C146_grid A text ⟨g', m⟩).2 ⟨scale, cell, nx, ny, nz, pieces, p, hf, hW0, hp, hg1, m1⟩, hg2, m2⟩

end Verif.Chgcar
