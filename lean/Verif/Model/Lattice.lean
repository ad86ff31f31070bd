import Mathlib.Algebra.Field.Defs
import Mathlib.Algebra.Field.Rat
/-!
# Model of the coordinate functions of /repo/parsevasp/utils.py (lines 248-333)

Arrays of shape (3) and (3, 3) over a field; NumPy's binary64 rounding is not modelled. `numpy.linalg.inv` is the exact inverse
(adjugate over determinant) and fails (`LinAlgError`) for singular matrices.
-/
set_option autoImplicit false
namespace Verif.Lattice

/-- An array of shape (3). -/
@[ext] structure V3 (K : Type) where
  x : K
  y : K
  z : K
  deriving DecidableEq, Repr

/-- An array of shape (3, 3): three rows. -/
@[ext] structure M3 (K : Type) where
  a : V3 K
  b : V3 K
  c : V3 K
  deriving DecidableEq, Repr

variable {K : Type}

/-- Apply a function to the three components. -/
def V3.map (f : K → K) (v : V3 K) : V3 K := ⟨f v.x, f v.y, f v.z⟩
/-- Apply a function to all nine components. -/
def M3.map (f : K → K) (m : M3 K) : M3 K := ⟨m.a.map f, m.b.map f, m.c.map f⟩

variable [Field K]

/-- Scalar product. -/
def V3.dot (v w : V3 K) : K := v.x * w.x + v.y * w.y + v.z * w.z

/-- `np.transpose`. -/
def M3.transpose (m : M3 K) : M3 K := ⟨⟨m.a.x, m.b.x, m.c.x⟩, ⟨m.a.y, m.b.y, m.c.y⟩, ⟨m.a.z, m.b.z, m.c.z⟩⟩

/-- Scalar multiple of a matrix. -/
def M3.scale (t : K) (m : M3 K) : M3 K := m.map (t * ·)

/-- `np.dot(v, m)`: row vector times matrix. -/
def V3.mul (v : V3 K) (m : M3 K) : V3 K := ⟨v.dot m.transpose.a, v.dot m.transpose.b, v.dot m.transpose.c⟩

/-- Determinant. -/
def M3.det (m : M3 K) : K :=
  m.a.x * (m.b.y * m.c.z - m.b.z * m.c.y) - m.a.y * (m.b.x * m.c.z - m.b.z * m.c.x) + m.a.z * (m.b.x * m.c.y - m.b.y * m.c.x)

/-- Adjugate. -/
def M3.adj (m : M3 K) : M3 K :=
  ⟨⟨m.b.y * m.c.z - m.b.z * m.c.y, m.a.z * m.c.y - m.a.y * m.c.z, m.a.y * m.b.z - m.a.z * m.b.y⟩,
   ⟨m.b.z * m.c.x - m.b.x * m.c.z, m.a.x * m.c.z - m.a.z * m.c.x, m.a.z * m.b.x - m.a.x * m.b.z⟩,
   ⟨m.b.x * m.c.y - m.b.y * m.c.x, m.a.y * m.c.x - m.a.x * m.c.y, m.a.x * m.b.y - m.a.y * m.b.x⟩⟩

/-- `np.linalg.inv`; `none` is `LinAlgError`. -/
def M3.inv [DecidableEq K] (m : M3 K) : Option (M3 K) :=
  if m.det = 0 then none else some (m.adj.map (· / m.det))

/-- utils.py:248-275 `dir_to_cart`. -/
def dirToCart (v : V3 K) (l : M3 K) : V3 K := v.mul l

/-- utils.py:278-303 `cart_to_dir`. -/
def cartToDir [DecidableEq K] (v : V3 K) (l : M3 K) : Option (V3 K) := l.inv.map fun i => v.mul i

/-- utils.py:306-333 `lat_to_reclat`; `twoPi` is `2 * math.pi`. -/
def latToReclat [DecidableEq K] (twoPi : K) (l : M3 K) : Option (M3 K) := l.transpose.inv.map fun i => i.scale twoPi

end Verif.Lattice
