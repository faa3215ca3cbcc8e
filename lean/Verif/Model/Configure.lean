import Verif.Model.Config

/-!
# The configuration script

`/repo/configure.ac:46-329`: which program is built for which arguments.  Not modelled: the search for compilers and libraries, documentation formats,
messages, the values that only the `Makefile` reads.
-/

namespace Pico
namespace Config

/-- The arguments of `configure`: the value of `--enable-x=...` or `--with-x=...`, `none` if it was not given.  `--enable-x` is the value `yes`,
`--disable-x` the value `no`. -/
structure Asked where
  experimental : Option (List Char) := none
  development : Option (List Char) := none
  debug : Option (List Char) := none
  profiler : Option (List Char) := none
  ieee : Option (List Char) := none
  singlethread : Option (List Char) := none
  mpi : Option (List Char) := none
  external : Option (List Char) := none
  pusher : Option (List Char) := none
  spatial : Option (List Char) := none
  velocity : Option (List Char) := none
  current : Option (List Char) := none
  collisions : Option (List Char) := none
  scheme : Option (List Char) := none
  pml : Option (List Char) := none

def yes : List Char := "yes".toList
def no : List Char := "no".toList

/-- `test x$OPTION == xyes`. -/
def isYes (s : List Char) : Bool := s == yes

/-- The pusher, `/repo/configure.ac:96-98,227-239`. -/
def choosePusher (s : List Char) : Res Pusher.Kind :=
  if s = "boris-adaptive".toList then .ok .borisAdaptive
  else if s = "boris".toList then .ok .boris
  else if s = "boris-relativistic".toList then .ok .borisRelativistic
  else if s = "vay".toList then .ok .vay
  else if s = "hc".toList then .ok .hc
  else .fatal

/-- The placement of the plasma, `/repo/configure.ac:245-255`. -/
def chooseSpatial (s : List Char) : Res Pic.Spatial :=
  if s = "random".toList then .ok .random
  else if s = "regular".toList then .ok .regular
  else if s = "centered".toList then .ok .centered
  else if s = "flat".toList then .ok .flat
  else .fatal

/-- The velocities of the plasma, `/repo/configure.ac:258-266`. -/
def chooseVelocity (s : List Char) : Res Pic.Speedy :=
  if s = "thermal".toList then .ok .thermal
  else if s = "rectangular".toList then .ok .rectangular
  else if s = "eigen".toList then .ok .eigen
  else .fatal

/-- The deposition of currents, `/repo/configure.ac:269-275`. -/
def chooseCurrent (s : List Char) : Res Deposition :=
  if s = "vb".toList then .ok .vb
  else if s = "zigzag".toList then .ok .zigzag
  else .fatal

/-- The scheme of collisions, `/repo/configure.ac:286-294`. -/
def chooseScheme (s : List Char) : Res Coll.Method :=
  if s = "ta77s".toList then .ok .ta77s
  else if s = "sk98".toList then .ok .sk98
  else if s = "p12".toList then .ok .p12
  else .fatal

/-- A feature that needs another option, `/repo/configure.ac:183-191,214-222`. -/
def gated (want lock : Bool) : Res Bool := if want then if lock then .ok true else .fatal else .ok false

/-- `CXXFLAGS`, `/repo/configure.ac:128,147-150,160-164,167-173,194-198,298`: default flags and the additional ones; `env` is the value of
`CFLAGS_ADDITIONAL` in the environment of the script. -/
def flagsText (env : List Char) (debug profiler single ieee : Bool) : List Char :=
  "-m64 -mcmodel=medium -std=c++17".toList ++ [' '] ++ env ++
  (if debug then " -O0 -Wall -Wextra -ggdb3 -fvar-tracking -ggnu-pubnames -pedantic -time -ftree-vectorizer-verbose=7".toList else []) ++
  (if profiler then " -pg -no-pie".toList else []) ++
  (if single then " -Wno-unknown-pragmas".toList else " -fopenmp -fopenmp-simd".toList) ++
  (if ieee then [] else " -ffast-math -O3 -march=native -funroll-loops -Wno-write-strings -freciprocal-math -fcx-fortran-rules -msse -mavx".toList)

/-- The script, `/repo/configure.ac:46-300`; `fatal` is `AC_MSG_ERROR`.  Without a value of their own, `ieee` and `singlethread` follow `debug`
(lines 68-74). -/
def configure (package version deps env : List Char) (a : Asked) : Res Build :=
  let experimental := isYes (a.experimental.getD no)
  let development := isYes (a.development.getD no)
  let debug := isYes (a.debug.getD no)
  let profiler := isYes (a.profiler.getD no)
  let ieee := isYes (a.ieee.getD (a.debug.getD no))
  let single := isYes (a.singlethread.getD (a.debug.getD no))
  gated (isYes (a.mpi.getD no)) development >>= fun mpi =>
  gated (isYes (a.external.getD no)) development >>= fun external =>
  choosePusher (a.pusher.getD "boris-adaptive".toList) >>= fun pusher =>
  chooseSpatial (a.spatial.getD "flat".toList) >>= fun spatial =>
  chooseVelocity (a.velocity.getD "thermal".toList) >>= fun velocity =>
  chooseCurrent (a.current.getD "vb".toList) >>= fun current =>
  (if isYes (a.collisions.getD no) then
    if experimental then chooseScheme (a.scheme.getD "p12".toList) >>= fun s => .ok (some s) else .fatal
  else .ok none) >>= fun collisions =>
  .ok { package := package, version := version, flags := flagsText env debug profiler single ieee, deps := deps, debug := debug, ieee := ieee,
        spatial := some spatial, speedy := some velocity, pusher := some pusher, deposition := some current, yee := true,
        pml := isYes (a.pml.getD yes), single := single, external := external, mpi := mpi, collisions := collisions }

end Config
end Pico
