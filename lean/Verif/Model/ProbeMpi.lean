import Verif.Model.Probe
import Verif.Model.HandMpi

/-!
# Frames written by several processes
`/repo/src/PiCoPiC.cpp:213-288` and `/repo/src/outController.cpp:50-310`, `:498-512` with MPI compiled in: all processes open
the same file, each has the probes of the whole area and fills the parts of a frame that its own domains hold.
-/

namespace Pico
namespace Probe

open SMB

/-- A frame of a rectangular probe filled by the domains of all processes.  An element of `order` is the number of a process
and one of its domains; the processes write without waiting for each other, so that the order is arbitrary.  Each write is
taken as one step (the parallel HDF5 library and the collective calls are not modelled).  `vals k i j` is the grid of domain
`(i, j)` of process `k`.  `/repo/src/outController.cpp:498-512`, `/repo/src/PiCoPiC.cpp:217-228`. -/
def assembleMpi {T : Type _} [Zero T] (p : Rect) (base : Geo) (procs : Nat) (vals : Nat → Nat → Nat → Grid T)
    (order : List (Nat × (Nat × Nat))) : Res (Frame T) :=
  loop (fun (q : Nat × (Nat × Nat)) f =>
      piece p (domDims (procGeo base procs q.1) q.2.1 q.2.2) (vals q.1 q.2.1 q.2.2) f) order
    ⟨p.r1 - p.r0, p.z1 - p.z0, fun _ _ => none⟩

end Probe
end Pico
