import Verif.Model.PicStart
import Verif.Spec.Pic
import Verif.Props.Sampling

/-! Specification vocabulary for the beginning of a run. -/

namespace Pico
namespace Pic

open SMB Yee

/-- The particle `a` is in domain `(i, j)` or at most half a cell beyond its outer radius or its right end, in the plane, between the walls of
the chamber, slower than light, and its cell numbers are those of its position. -/
structure Near (E : Env) (i j : Nat) (a : Part ℝ) : Prop where
  phi : a.posPhi = 0
  rlo : low E.p.nr E.domR i * E.p.dr ≤ a.posR
  rhi : a.posR ≤ (low E.p.nr E.domR (i + 1) + 1 / 2) * E.p.dr
  zlo : low E.p.nz E.domZ j * E.p.dz ≤ a.posZ
  zhi : a.posZ ≤ (low E.p.nz E.domZ (j + 1) + 1 / 2) * E.p.dz
  r1 : E.p.dr / 2 ≤ a.posR
  r2 : a.posR ≤ E.p.nr * E.p.dr - E.p.dr / 2
  z1 : E.p.dz / 2 ≤ a.posZ
  z2 : a.posZ ≤ E.p.nz * E.p.dz - E.p.dz / 2
  slow : (vel a).length2 < E.c ^ 2
  cellR : (a.cellR : Int) = ⌊a.posR / E.p.dr⌋
  cellZ : (a.cellZ : Int) = ⌊a.posZ / E.p.dz⌋

/-- A sane state before the first step: as `Alive`, but particles may lie half a cell outside their domains. -/
structure Begun (E : Env) (ids : List Nat) (S : State) : Prop where
  species : ∀ i j, (S.D i j).map Sp.id = ids
  once : (ids.flatMap (tagsOf E S.D)).Nodup
  place : ∀ i j, i < E.domR → j < E.domZ → ∀ sp ∈ S.D i j, ∀ o ∈ sp.parts, Near E i j (S.heap o.tag)
  fields : ∃ m, ∀ c, c.isSource = false → Windows E.p E.domR E.domZ c S.M m

/-- The species and beams of a configuration. -/
def Setup.ids (X : Setup) : List Nat := X.species.map Species.id ++ X.beams

/-- A configuration that makes sense: a chamber, sane constants, different identifiers, densities and temperatures that are not negative,
random numbers from `[0, 1)` and, for the directions, from `[-1, 1]`. -/
structure Setup.Sane (X : Setup) : Prop where
  chamber : Chamber X.env
  lim : 0 < X.env.lim
  lim3 : 3 * X.env.lim < X.env.c
  q : 0 < X.q
  mnzl0 : 0 < X.mnzl
  mnzl1 : X.mnzl < 1
  mnzlR : X.mnzl < X.env.p.dr / 2
  mnzlZ : X.mnzl < X.env.p.dz / 2
  ids : X.ids.Nodup
  plasma : ∀ s ∈ X.species, 0 ≤ s.left ∧ 0 ≤ s.right ∧ 0 ≤ s.temperature
  ur : ∀ i j id n, 0 ≤ X.ur i j id n ∧ X.ur i j id n < 1
  uz : ∀ i j id n, 0 ≤ X.uz i j id n ∧ X.uz i j id n < 1
  us : ∀ i j id n, 0 ≤ X.us i j id n ∧ X.us i j id n < 1
  rs : ∀ i j id n, Vel.InCube (X.rs i j id n)

/-- A species that is not too hot for the velocity distribution of the build (C78, C80): for the default one the temperature is below `0.1`
and 21 times the temperature below `√2 m c²`, or the random numbers that are drawn give energies between zero and `√2 m c²`. -/
def Setup.Cold (X : Setup) (s : Species) : Prop :=
  match X.speedy with
  | .thermal => (s.temperature < 0.1 ∧ Vel.ratio (X.cst s.id) (21 * s.temperature) ^ 2 ≤ 2 * X.env.c ^ 2) ∨
      (0.1 ≤ s.temperature ∧ ∀ i j, i < X.env.domR → j < X.env.domZ → ∀ p ∈ X.ws i j s.id, Vel.InTable s.temperature p.1 ∧
        1 ≤ Vel.guess s.temperature p.1 ∧ Vel.ratio (X.cst s.id) (Vel.guess s.temperature p.1 - 1) ^ 2 ≤ 2 * X.env.c ^ 2)
  | .rectangular | .eigen => 2 * (2 * Vel.ratio (X.cst s.id) s.temperature) ^ 2 < X.env.c ^ 2

/-- The numbers of particles fit into `int` and the sampling of energies comes to an end within the table (C80). -/
def Setup.Drawable (X : Setup) (s : Species) : Prop :=
  0 ≤ s.amount ∧ s.amount / X.env.domR / X.env.domZ < 2 ^ 31 ∧ X.env.p.nr * X.env.p.nz ≤ 2 ^ 31 ∧
  match X.speedy with
  | .thermal => (s.temperature < 0.1 ∧ ∀ i j n, Vel.lnln (X.us i j s.id n) ≠ 2) ∨
      (0.1 ≤ s.temperature ∧ ∀ i j n, Amount X i j s n → ∃ r, Vel.sample n s.temperature (X.us i j s.id) (X.ws i j s.id) = some r)
  | .rectangular | .eigen => True

end Pic
end Pico
