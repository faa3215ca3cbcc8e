import Verif.Model.PhysInfo
import Verif.Spec.MetaReader
import Verif.Spec.Beam

/-!
# What a summary of a run is to foretell
-/

namespace Pico
namespace PhysInfo

variable {K : Type} [Field K] [LinearOrder K] [IsStrictOrderedRing K]

/-- The beam the program makes of a configured one (in any domain): the same numbers.  Its amount of macroparticles comes from the budget. -/
structure Same (p : Config.BeamData K) (b : Beam.Conf K) : Prop where
  start : b.start = p.start
  velocity : b.velocity = p.velocity
  bunches : (b.bunches : Int) = p.bunches
  length : b.length = p.length
  distance : b.distance = p.distance
  radius : b.radius = p.radius
  density : b.density = p.density

/-- The last species of a list with a given name, written in small or capital letters, is `s`. -/
def LastNamed (name : List Char) (l : List (Species.Specie K)) (s : Species.Specie K) : Prop :=
  ∃ l1 l2, l = l1 ++ s :: l2 ∧ s.name.map Char.toLower = name ∧ ∀ t ∈ l2, t.name.map Char.toLower ≠ name

/-- A file of results of the configuration `c` of which the summary can be made: it has electrons `e` and ions `s`, whose densities and
temperatures are positive, a first beam `p` that moves and has a whole number of bunches, and a positive time step. -/
structure Ready (c : Config.Conf K) (m : MetaReader.Meta K) (p : Config.BeamData K) (e s : Species.Specie K) : Prop where
  shows_ : MetaReader.Shows c m
  electrons : LastNamed "electrons".toList c.species e
  ions : LastNamed "ions".toList c.species s
  densities : 0 < (e.left + e.right) / 2 ∧ 0 < (s.left + s.right) / 2
  warm : 0 < e.temperature ∧ 0 < s.temperature
  first : c.beams.head? = some p
  whole : ∃ t, m.beams.head? = some t ∧ t.bunches = .num (p.bunches : K)
  moves : 0 < p.velocity
  step : 0 < c.time.step

/-- Real particles of one bunch, a cylinder of constant density. -/
def bunchParticles (pi : K) (b : Beam.Conf K) : K := b.density * (pi * b.radius ^ 2 * b.length)

/-- Total number of real particles represented by macroparticles. -/
def real (l : List (Part K)) : K := (l.map fun p => p.weight).sum

end PhysInfo
end Pico
