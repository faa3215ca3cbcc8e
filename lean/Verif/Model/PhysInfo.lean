import Verif.Model.MetaReader

/-!
# The physical summary of recorded results  (`/repo/tools/parse_metadata.py:17-100`)

`parse_metadata.py --phys-info` opens a file of results and prints what is to be expected of the run.  `none` is a Python exception;
lines printed before an exception are left out.  `math.pi` is a parameter `pi`, `math.sqrt` a parameter `sq`; the numbers are exact, the
rounding of the printed text is left out.
-/

namespace Pico
namespace PhysInfo

open Config MetaReader

variable {K : Type} [Field K] [LinearOrder K]

/-- `str.lower` as far as it matters for a comparison with words of small Latin letters: no other character becomes one of their
letters. -/
def lower (s : List Char) : List Char := s.map Char.toLower

/-- `math.sqrt`: `ValueError` for negative numbers. -/
def pySqrt (sq : K → K) (x : K) : Option K := if x < 0 then none else some (sq x)

/-- `langmur_freq`, `/repo/tools/parse_metadata.py:18-25`. -/
def langmurFreq (sq : K → K) (density : K) : Option K :=
  (pyDiv (density * (-(16 / 10 ^ 20)) ^ 2) (91 / 10 ^ 32 * (88 / 10 ^ 13))).bind fun x => pySqrt sq x

/-- `debye_length`, lines 28-30. -/
def debyeLength (sq : K → K) (ne ni te ti : K) : Option K :=
  (pyDiv ne te).bind fun x => (pyDiv ni ti).bind fun y => (pySqrt sq (x + y)).bind fun s => pyDiv (7433944 / 1000) s

/-- `wake_length`, lines 38-41. -/
def wakeLength (sq : K → K) (pi density velocity : K) : Option K :=
  (langmurFreq sq density).bind fun w => pyDiv (2 * pi * velocity) w

/-- The local variables of the loop over the species, lines 54-60: density and temperature of electrons and ions, `none` as long as
they are not assigned. -/
structure Found (K : Type) where
  el : Option (K × Json K)
  ion : Option (K × Json K)

/-- `(i.density[0] + i.density[1]) / 2`; operands that are not numbers raise (truth values are not considered). -/
def mean (s : MSpecie K) : Option K := (asNum s.left).bind fun a => (asNum s.right).bind fun b => some ((a + b) / 2)

/-- One turn of the loop, lines 55-60; a name that is not a text has no `lower`. -/
def scan (f : Found K) (s : MSpecie K) : Option (Found K) :=
  match s.name with
  | .str n =>
    (if lower n = ['e', 'l', 'e', 'c', 't', 'r', 'o', 'n', 's'] then
      (mean s).bind fun d => some { f with el := some (d, s.temperature) } else some f).bind fun f =>
    if lower n = ['i', 'o', 'n', 's'] then (mean s).bind fun d => some { f with ion := some (d, s.temperature) } else some f
  | _ => none

/-- The loop, lines 54-60. -/
def scanAll : List (MSpecie K) → Found K → Option (Found K)
  | [], f => some f
  | s :: l, f => (scan f s).bind fun f => scanAll l f

/-- What is printed about single bunches, if the beam has more than one: lines 87, 90, 93-95. -/
structure BunchInfo (K : Type) where
  time : K
  length : K
  period : K
  bunches : K
  particles : K

/-- What is printed, lines 77-96. -/
structure Info (K : Type) where
  frequency : K
  wake : K
  debye : K
  passage : K
  steps : K
  velocity : K
  time : K
  length : K
  radius : K
  particles : K
  bunch : Option (BunchInfo K)

/-- What the summary says: that electrons or ions are missing, lines 62-65, or the numbers. -/
inductive Answer (K : Type) where
  | noElectrons
  | noIons
  | info (i : Info K)

/-- The numbers, lines 67-96, from density and temperature of the electrons and of the ions, the length of the chamber, the three times
and the values of the beam: velocity, bunches, length, distance, radius and density of its bunches. -/
def numbers (sq : K → K) (pi ne ni te ti size start stop step v n len dist rad dens : K) : Option (Info K) :=
  (pyDiv len v).bind fun bunchTime =>
  (pyDiv dist v).bind fun _ =>
  let beamLength := len * n + dist * (n - 1)
  (pyDiv beamLength v).bind fun beamTime =>
  (langmurFreq sq ne).bind fun w =>
  (wakeLength sq pi ne v).bind fun wake =>
  (debyeLength sq ne ni te ti).bind fun debye =>
  let inBunch := pi * rad ^ 2 * bunchTime * v * dens
  (pyDiv w (2 * pi)).bind fun freq =>
  (pyDiv size v).bind fun cross =>
  (pyDiv (stop - start) step).bind fun steps =>
  some {
    frequency := freq
    wake := wake
    debye := debye
    passage := cross + beamTime
    steps := steps
    velocity := v
    time := beamTime
    length := beamLength
    radius := rad
    particles := inBunch * n
    bunch := if 1 < n then some ⟨bunchTime, len, dist + len, n, inBunch⟩ else none }

/-- `phys_info`, `/repo/tools/parse_metadata.py:45-97`, after the file has been opened.  A variable that has not been assigned raises
`UnboundLocalError`, an empty list of beams `IndexError`. -/
def physInfo (sq : K → K) (pi : K) (m : Meta K) : Option (Answer K) :=
  (scanAll m.species ⟨none, none⟩).bind fun f =>
  f.el.bind fun e =>
  if e.1 = 0 then some .noElectrons
  else f.ion.bind fun i =>
  if i.1 = 0 then some .noIons
  else m.beams.head?.bind fun b =>
  (asNum e.2).bind fun te => (asNum i.2).bind fun ti =>
  (asNum m.sizeZ).bind fun size => (asNum m.start).bind fun start => (asNum m.stop).bind fun stop => (asNum m.step).bind fun step =>
  (asNum b.velocity).bind fun v => (asNum b.bunches).bind fun n => (asNum b.length).bind fun len =>
  (asNum b.distance).bind fun dist => (asNum b.radius).bind fun rad => (asNum b.density).bind fun dens =>
  (numbers sq pi e.1 i.1 te ti size start stop step v n len dist rad dens).bind fun r => some (.info r)

end PhysInfo
end Pico
