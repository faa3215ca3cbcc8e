import Verif.Model.Yee
import Mathlib.Algebra.Order.Field.Basic

/-! Specification vocabulary of the field solver: discrete divergences in cylindrical coordinates,
perfectly conducting walls, histories of a solver. -/

namespace Pico
namespace Yee

variable {K : Type _} [Field K]

/-- Divergence `1/r ∂(r F_r)/∂r + ∂F_z/∂z` (no dependence on the azimuth) at radius `r`, from the
radial component at radii `r ± dr/2` and the axial component at `z ± dz/2`. -/
def divergence (dr dz r FrOut FrIn FzNext FzPrev : K) : K :=
  ((r + dr / 2) * FrOut - (r - dr / 2) * FrIn) / (r * dr) + (FzNext - FzPrev) / dz

/-- Divergence on the axis: flux through the cylinder of radius `dr/2` divided by its volume. -/
def divergenceAxis (dr dz FrOut FzNext FzPrev : K) : K := 4 * FrOut / dr + (FzNext - FzPrev) / dz

/-- Divergence of the magnetic field in cell `(i, k)`: `H_r` lives at the radii `(r0 + i) dr`,
`H_z` at the radii `(r0 + i + 1/2) dr`. -/
def divMagnetic (p : Par K) (Hr Hz : Int → Int → K) (i k : Int) : K :=
  divergence p.dr p.dz (((p.r0 : K) + i + 1/2) * p.dr) (Hr (i + 1) k) (Hr i k) (Hz i (k + 1)) (Hz i k)

/-- Divergence of an electric vector at node `(i, k)`, off the axis: `E_r` lives at the radii
`(r0 + i + 1/2) dr`, `E_z` at the radii `(r0 + i) dr`. -/
def divElectric (p : Par K) (Fr Fz : Int → Int → K) (i k : Int) : K :=
  divergence p.dr p.dz (((p.r0 : K) + i) * p.dr) (Fr i k) (Fr (i - 1) k) (Fz i k) (Fz i (k - 1))

/-- Divergence of an electric vector at node `(0, k)` on the axis. -/
def divElectricAxis (p : Par K) (Fr Fz : Int → Int → K) (k : Int) : K :=
  divergenceAxis p.dr p.dz (Fr 0 k) (Fz 0 k) (Fz 0 (k - 1))

/-- Displacement `epsilon E`. -/
def displacement (m : Mem K) (c : Comp) (i k : Int) : K := m .eps i k * m c i k

/-- Sane solver parameters; the axis is a wall exactly for the innermost domains. -/
structure Par.Good [LinearOrder K] (p : Par K) : Prop where
  dr : 0 < p.dr
  dz : 0 < p.dz
  dt : 0 < p.dt
  mu : 0 < p.mu
  nr : 1 ≤ p.nr
  nz : 1 ≤ p.nz
  nr' : p.nr < 2 ^ 31
  nz' : p.nz < 2 ^ 31
  axis : p.walls.r0 = true ↔ p.r0 = 0
  /-- a domain that touches two opposite walls is at least two cells wide -/
  nr2 : p.walls.r0 = true → p.walls.rr = true → 2 ≤ p.nr
  nz2 : p.walls.z0 = true → p.walls.zz = true → 2 ≤ p.nz

/-- The components that hold a field (electric, magnetic or magnetic at the half step). -/
def Comp.isField : Comp → Prop
  | .jr | .jp | .jz | .eps | .sig => False
  | _ => True

/-- What can happen to the memory of a solver: an electric step, a magnetic step, or anything that
leaves the fields in the non-overlay cells alone (depositing currents, filling the overlay from a
neighbour domain, changing the media). -/
inductive Happens (p : Par K) : Mem K → Mem K → Prop
  | electric {m m'} : calcE p m = .ok m' → Happens p m m'
  | magnetic {m m'} : calcH p m = .ok m' → Happens p m m'
  | other {m m'} : (∀ c i k, c.isField → p.logical i k → m' c i k = m c i k) → Happens p m m'

/-- Any number of events. -/
inductive History (p : Par K) : Mem K → Mem K → Prop
  | nil {m} : History p m m
  | snoc {m m' m''} : History p m m' → Happens p m' m'' → History p m m''

/-- Perfect conductors: tangential field zero at the `z = 0` wall, the whole field zero in the last
column and the last row next to the other walls; `E_φ` zero on the axis. -/
structure Conducting (p : Par K) (m : Mem K) : Prop where
  z0 : p.walls.z0 = true → ∀ i, p.logical i 0 → m .er i 0 = 0 ∧ m .ep i 0 = 0
  zz : p.walls.zz = true → ∀ i k, p.logical i k → k = (p.nz : Int) - 1 →
    m .er i k = 0 ∧ m .ep i k = 0 ∧ m .ez i k = 0
  rr : p.walls.rr = true → ∀ i k, p.logical i k → i = (p.nr : Int) - 1 →
    m .er i k = 0 ∧ m .ep i k = 0 ∧ m .ez i k = 0
  r0 : p.walls.r0 = true → ∀ k, p.logical 0 k → m .ep 0 k = 0

/-- The state a solver is constructed in: all fields and currents zero. -/
def Fresh (p : Par K) (m : Mem K) : Prop :=
  ∀ c i k, c ≠ .eps → c ≠ .sig → p.inside i k → m c i k = 0

/-- Absorbing layers fit the geometry of the domain. -/
structure Pml.Fits [LinearOrder K] (q : Pml K) (p : Par K) : Prop where
  s0 : 0 ≤ q.s0
  s1 : q.s0 ≤ q.s1
  off : q.r0 = p.r0
  sizeR : q.sizeR = (q.gnr : K) * p.dr
  sizeZ : q.sizeZ = (q.gnz : K) * p.dz
  rIn : q.r0 + p.nr ≤ q.gnr
  zIn : q.z0 + p.nz ≤ q.gnz
  big : q.gnr < 2 ^ 63 ∧ q.gnz < 2 ^ 63

/-- Row `i` lies in the outer layer: among the `outer` last rows of the whole area. -/
def Pml.inOuter (q : Pml K) (i : Int) : Prop := (q.gnr : Int) - q.outer ≤ q.r0 + i
/-- Column `k` lies in the left layer. -/
def Pml.inLeft (q : Pml K) (k : Int) : Prop := q.z0 + k < (q.left : Int)
/-- Column `k` lies in the right layer. -/
def Pml.inRight (q : Pml K) (k : Int) : Prop := (q.gnz : Int) - q.right ≤ q.z0 + k

end Yee
end Pico
