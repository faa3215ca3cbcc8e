import Verif.Model.Placement

/-!
# Particle beams  (`/repo/src/beamP.cpp`, `/repo/include/beamP.hpp`)

Exact arithmetic; `constant::PI` is a parameter `pi`.  `math::random::uniform()` is a stream of pairs `rnd`: the two
numbers drawn for the i-th particle of a step.
-/

namespace Pico
namespace Beam

open _root_.Pico.Part

variable {K : Type _} [Field K] [LinearOrder K] [IsStrictOrderedRing K] [FloorRing K]

/-- The arguments of the constructor that `inject` uses, `/repo/src/beamP.cpp:22-35`; `bunches` is converted to
`unsigned int` (`/repo/include/beamP.hpp:36`) and is not zero (`/repo/src/SMB.cpp:152`). -/
structure Conf (K : Type _) where
  id : Nat
  amount : Nat
  start : K
  radius : K
  density : K
  bunches : Nat
  length : K
  distance : K
  velocity : K

/-- `domain_radius`, `/repo/src/beamP.cpp:54-62`; `geometry->size[0]` is the number of cells of the domain times
their size (`/repo/src/SMB.cpp:97`). -/
def domainRadius (b : Conf K) (g : Geom K) : K :=
  if 0 < g.z0 then 0
  else if ((g.r0 + g.nr : Nat) : K) * g.dr < b.radius then g.nr * g.dr
  else if (g.r0 : K) * g.dr < b.radius then b.radius - g.r0 * g.dr
  else 0

/-- `bunch_macro_amount`, `/repo/src/beamP.cpp:64-66`: the quotient is that of two `unsigned int`. -/
def bunchMacro (b : Conf K) (g : Geom K) : K := ((b.amount / b.bunches : Nat) : K) * (domainRadius b g / b.radius)

/-- `macro_per_step_to_inject`, `/repo/src/beamP.cpp:68`. -/
def perStep (b : Conf K) (g : Geom K) (dt : K) : K := bunchMacro b g * b.velocity * dt / b.length

/-- Body of the loop of `inject`, `/repo/src/beamP.cpp:102-144`.  Both cell numbers are computed from the radial
position, lines 136-137. -/
def injectOne (pi dt : K) (b : Conf K) (g : Geom K) (rnd : K × K) : Res (Part K) :=
  let dl := b.velocity * dt
  let posR := domainRadius b g * rnd.1 + g.dr / 2 + g.r0 * g.dr
  let posZ := dl * rnd.2 + g.dz / 2
  let vAvg := pi * b.radius * g.dr * g.dz
  let nTotal := pi * b.radius * b.radius * b.length * b.bunches * b.density
  let nAvg := nTotal / b.amount
  let norm := if g.dr / 2 < posR then 2 * pi * posR * g.dr * g.dz / vAvg
    else pi * (posR * posR + posR * g.dr + g.dr * g.dr / 4) * g.dz / vAvg
  cellNumber posR g.dr >>= fun rCell =>
  cellNumber posR g.dz >>= fun zCell =>
  .ok { Place.newPart b.id posR posZ with
    velZ := b.velocity, weight := nAvg * norm, cellR := toSizeT rCell, cellZ := toSizeT zCell }

/-- A list of results, the first that is not `ok` wins. -/
def collect {α : Type _} : List (Res α) → Res (List α)
  | [] => .ok []
  | x :: xs => x >>= fun a => collect xs >>= fun l => .ok (a :: l)

/-- `current_bunch_number` and `particles` of the beam object of a domain. -/
structure St (K : Type _) where
  bunch : Nat
  particles : List (Part K)

/-- `inject`, `/repo/src/beamP.cpp:71-157`, at time `t`.  The loop runs `⌈perStep⌉` times (the counter is
`unsigned int`, so this needs `perStep` below `2^32`). -/
def inject (pi dt : K) (b : Conf K) (g : Geom K) (t : K) (rnd : Nat → K × K) (s : St K) : Res (St K) :=
  if s.bunch < b.bunches then
    let start := b.start + (b.length + b.distance) / b.velocity * s.bunch
    let finish := start + b.length / b.velocity
    (if (g.r0 : K) * g.dr < b.radius ∧ start ≤ t ∧ t < finish then
      collect ((List.range (Place.turns (perStep b g dt))).map fun i => injectOne pi dt b g (rnd i)) >>= fun new =>
      .ok { s with particles := s.particles ++ new }
    else .ok s) >>= fun s =>
    .ok (if finish < t ∧ g.z0 = 0 ∧ g.r0 = 0 then { s with bunch := s.bunch + 1 } else s)
  else .ok s

/-- `Domain::manage_beam`, `/repo/src/domain.cpp:180-186`, for one beam. -/
def manage (pi dt : K) (b : Conf K) (g : Geom K) (t : K) (rnd : Nat → K × K) (s : St K) : Res (St K) :=
  if g.z0 = 0 then inject pi dt b g t rnd s else .ok s

/-- The state after construction, `/repo/src/beamP.cpp:40`. -/
def init : St K := ⟨0, []⟩

/-- The calls of a run: step `n` at time `n * dt` (`/repo/src/PiCoPiC.cpp:299-326`, `/repo/src/cfg.cpp:438`), with the
random numbers `rnd n`.  `run n` is the state before step `n`.  `rest n` is what the remainder of step `n` does to the
particles of the beam (moving, handing over, removing): anything. -/
def run (pi dt : K) (b : Conf K) (g : Geom K) (rnd : Nat → Nat → K × K) (rest : Nat → List (Part K) → List (Part K)) :
    Nat → Res (St K)
  | 0 => .ok init
  | n + 1 => run pi dt b g rnd rest n >>= fun s => manage pi dt b g (n * dt) (rnd n) s >>= fun s =>
    .ok { s with particles := rest n s.particles }

end Beam
end Pico
