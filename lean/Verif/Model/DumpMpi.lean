import Verif.Model.Dump

/-!
# Maps prepared by one of several processes
`/repo/src/outController.cpp:312-496` has no MPI block: each process prepares the maps from the particles of its own domains
and exchanges them between its own domains only.
-/

namespace Pico
namespace Dump

/-- What process `k` has of the whole when every process has `m` columns of domains: the columns from `k * m`,
`/repo/src/PiCoPiC.cpp:217-228`.  The borders of the domains are arbitrary. -/
def World.slab (W : World) (m k : Nat) : World :=
  { W with
    nz := m
    offZ := fun j => W.offZ (k * m + j)
    parts := fun s i j => W.parts s i (k * m + j) }

end Dump
end Pico
