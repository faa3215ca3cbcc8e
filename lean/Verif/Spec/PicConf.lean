import Verif.Model.PicConf
import Verif.Spec.Config
import Verif.Spec.PicStart
import Verif.Spec.PicOut

/-! Specification vocabulary for runs from the configuration file on. -/

namespace Pico
namespace PicConf

open Config SMB Yee

/-- What a configuration has to say for a run to make sense, and the program does not check: sizes, time step and masses are positive, cells are not
smaller than the program can tell from zero, the division into domains is even, densities and temperatures are not negative, and the
identifiers the program computes from the names are different. -/
structure Usable (c : Conf ℝ) : Prop where
  sizeR : 0 < c.geo.sizeR
  sizeZ : 0 < c.geo.sizeZ
  step : 0 < c.time.step
  cellR : 2e-15 < c.geo.cellR
  cellZ : 2e-15 < c.geo.cellZ
  div : Divided (area c) c.geo.domR c.geo.domZ
  mass : (∀ s ∈ c.species, 0 < s.mass) ∧ ∀ p ∈ c.beams, 0 < p.mass
  plasma : ∀ s ∈ c.species, 0 ≤ s.left ∧ 0 ≤ s.temperature
  ids : (c.species.map (·.id) ++ c.beams.map (·.id)).Nodup

/-- Random numbers as they are drawn. -/
structure Random.Fair (x : Random) : Prop where
  ur : ∀ i j id n, 0 ≤ x.ur i j id n ∧ x.ur i j id n < 1
  uz : ∀ i j id n, 0 ≤ x.uz i j id n ∧ x.uz i j id n < 1
  us : ∀ i j id n, 0 ≤ x.us i j id n ∧ x.us i j id n < 1
  rs : ∀ i j id n, Vel.InCube (x.rs i j id n)

/-- Not too hot, in electronvolts: below a tenth for the default distribution of velocities (for hotter plasmas it depends on the random
numbers, `Pic.Setup.Cold`), 180000 times the mass in electron masses for the others. -/
def Mild (b : Algos) (c : Conf ℝ) : Prop :=
  ∀ s ∈ c.species, match b.speedy with
    | .thermal => s.temperature < 0.1
    | .rectangular | .eigen => s.temperature ≤ 180000 * s.mass

/-- A probe that can be served (`Pic.OProbe.Fits`). -/
structure Served (c : Conf ℝ) (p : ProbeData) : Prop where
  known : p.component ∈ Probe.fieldBased ++ Probe.specieBased
  every : 1 ≤ p.schedule ∧ p.schedule < 65536
  rows : p.dims.r0 < p.dims.r1
  cols : p.dims.z0 < p.dims.z1
  edge : ∀ i, 0 < i → i < c.geo.domR → low c.geo.nr c.geo.domR i ≠ p.dims.r0 ∧ low c.geo.nr c.geo.domR i ≠ p.dims.r1

/-- A build with these algorithms, for one process, without collisions and external fields. -/
structure Selects (b : Build) (a : Algos) : Prop where
  spatial : b.spatial = some a.spatial
  speedy : b.speedy = some a.speedy
  pusher : b.pusher = some a.pusher
  deposition : b.deposition = some a.deposition
  pml : b.pml = a.pml
  yee : b.yee = true
  mpi : b.mpi = false
  external : b.external = false
  collisions : b.collisions = none

/-- The beams that are injected make sense: slower than light, with extent, density and macroparticles; cells are not too flat. -/
structure Bunched (c : Conf ℝ) : Prop where
  beams : ∀ p ∈ c.beams, 0 < p.bunches → (0 ≤ p.start ∧ 0 < p.radius ∧ 0 < p.length ∧ 0 ≤ p.distance) ∧ (0 < p.velocity ∧ p.velocity < light) ∧ 0 < p.density
  amounts : ∀ n ∈ c.amounts.2, 1 ≤ n
  rows : c.geo.nr + 2 ≤ 2 ^ 31
  flat : ((c.geo.nr : ℝ) + 1) * c.geo.cellR ≤ 2 ^ 31 * c.geo.cellZ

end PicConf
end Pico
