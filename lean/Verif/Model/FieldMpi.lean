import Verif.Model.FieldStep
import Verif.Model.Mpi

/-!
# The field step of several processes  (`/repo/src/SMB.cpp` with `ENABLE_MPI`)

Every process owns a slab of the area, divided into domains; after the exchange between its own domains it exchanges columns
with the neighbouring processes.
-/

namespace Pico
namespace Yee

open SMB

variable {K : Type _}

/-- Area of process `k` of `procs` as the solvers see it, `/repo/src/PiCoPiC.cpp:217-234`.  The process divides its length
`size / procs` by its number of cells, which gives the cell size of the area if `procs` divides the number of cells; only that
case is used (see C53 for the other one). -/
def slabPar (p : Par K) (procs k : Nat) : Par K :=
  { p with
    nz := p.nz / procs
    walls := ⟨p.walls.r0, (slabWalls (p.walls.z0, p.walls.zz) procs k).1, p.walls.rr, (slabWalls (p.walls.z0, p.walls.zz) procs k).2⟩ }

/-- `MPICommOverlay`, `/repo/include/SMB.hpp:59-174`: the number of the domain row and four columns of the components. -/
structure Item (K : Type _) where
  row : Nat
  col : Comp → Nat → Nat → K

/-- Filling the four columns of one component, all allocated rows, `/repo/src/SMB.cpp:853-901,1074-1122`.  The columns start
with zeros; `get q a` reads column `q`, row `a`.  The code reads the three components of a row together. -/
def packCols [Zero K] (get : Nat → Nat → Res K) (rows : Nat) : Res (Nat → Nat → K) :=
  loop (fun (p : Nat × Nat) (v : Nat → Nat → K) => get p.2 p.1 >>= fun x => .ok fun q a => if a = p.1 ∧ q = p.2 then x else v q a)
    (idx2 0 rows 0 4) fun _ _ => 0

/-- The item of domain row `i`. -/
def packItem [Zero K] (pack : Grid K → Nat → Nat → Res K) (P : Par K) (m : Mem K) (cs : List Comp) (i : Nat) : Res (Item K) :=
  loop (fun c it => packCols (pack (toGrid P m c)) (toGrid P m c).xr >>= fun v =>
    .ok { it with col := fun c' => if c' = c then v else it.col c' }) cs ⟨i, fun _ _ _ => 0⟩

/-- The items for one neighbour, from the domains of column `j`, `/repo/src/SMB.cpp:835-906,1056-1127`. -/
def packAll [Zero K] (pack : Grid K → Nat → Nat → Res K) (P : Nat → Nat → Par K) (domR j : Nat) (cs : List Comp) (M : Solvers K) :
    Res (List (Item K)) :=
  loop (fun i l => packItem pack (P i j) (M i j) cs i >>= fun it => .ok (l ++ [it])) (List.range domR) []

/-- Adding one component of a received item to a domain of column `j`. -/
def addComp (add : Grid K → (Nat → Nat → K) → Res (Grid K)) (P : Nat → Nat → Par K) (j : Nat) (it : Item K) (c : Comp)
    (M : Solvers K) : Res (Solvers K) :=
  add (toGrid (P it.row j) (M it.row j) c) (it.col c) >>= fun g =>
    .ok fun a b => if a = it.row ∧ b = j then ofGrid (P a b) (M a b) c g else M a b

/-- Adding a received item, `/repo/src/SMB.cpp:941-1002,1162-1223`. -/
def addItem (add : Grid K → (Nat → Nat → K) → Res (Grid K)) (P : Nat → Nat → Par K) (domR j : Nat) (cs : List Comp) (it : Item K)
    (M : Solvers K) : Res (Solvers K) :=
  if it.row < domR then loop (addComp add P j it) cs M else .ub

/-- Exchange of the components `cs` between `procs` processes of `domR × domZ` domains, with some schedule and `cap` messages
buffered per ordered pair, `/repo/src/SMB.cpp:825-1003` and `:1046-1224`.  `P k` are the parameters of the domains of process
`k`, `M k` their solvers. -/
def Exchange [Zero K] [Add K] (P : Nat → Nat → Nat → Par K) (procs domR domZ cap : Nat) (cs : List Comp) (M M' : Nat → Solvers K) : Prop :=
  ∃ plus minus : Nat → List (Item K),
    (∀ k, k < procs → packAll Mpi.packPlus (P k) domR (domZ - 1) cs (M k) = .ok (plus k) ∧
      packAll Mpi.packMinus (P k) domR 0 cs (M k) = .ok (minus k)) ∧
    ∃ s, Mpi.Reach cap procs plus minus s ∧ Mpi.Final s ∧ ∀ k, k < procs →
      (loop (addItem Mpi.addMinus (P k) domR 0 cs) (if 0 < k then s.got k (k - 1) else []) (M k) >>=
        loop (addItem Mpi.addPlus (P k) domR (domZ - 1) cs) (if k + 1 < procs then s.got k (k + 1) else [])) = .ok (M' k)

/-- `SMB::solve_maxvell` of all processes, `/repo/src/SMB.cpp:1231-1252`.  Between the processes only the electric field and
the magnetic field at the time of the electric one are exchanged (`field_h_at_et`, lines 841-1001), not the magnetic field
of the solver (`field_h`). -/
def SolveMpi [Field K] (P : Nat → Nat → Nat → Par K) (procs domR domZ cap : Nat) (M M' : Nat → Solvers K) : Prop :=
  ∃ M1 M2 M3 : Nat → Solvers K,
    (∀ k, k < procs → (each domR domZ (fun i j => calcE (P k i j)) (M k) >>= loop (overlayComp (P k) domR domZ) [.er, .ep, .ez]) = .ok (M1 k)) ∧
    Exchange P procs domR domZ cap [.er, .ep, .ez] M1 M2 ∧
    (∀ k, k < procs → (each domR domZ (fun i j => calcH (P k i j)) (M2 k) >>=
      loop (overlayComp (P k) domR domZ) [.hr, .hp, .hz, .fr, .fp, .fz]) = .ok (M3 k)) ∧
    Exchange P procs domR domZ cap [.fr, .fp, .fz] M3 M'

/-- `n` steps of all processes from zero fields, the currents of step `t` in domain `(i, j)` of process `k` being
`loc t k i j`. -/
inductive MpiRun [Field K] (P : Nat → Nat → Nat → Par K) (procs domR domZ cap : Nat) (loc : Nat → Nat → Nat → Nat → Comp → Int → Int → K) :
    Nat → (Nat → Solvers K) → Prop
  | start : MpiRun P procs domR domZ cap loc 0 fun _ _ _ _ _ _ => 0
  | step {t : Nat} {M M' : Nat → Solvers K} : MpiRun P procs domR domZ cap loc t M →
      SolveMpi P procs domR domZ cap (fun k i j => setSources (loc t k i j) (M k i j)) M' →
      MpiRun P procs domR domZ cap loc (t + 1) M'

/-- Parameters of the domains of all processes. -/
def mpiPar [Field K] (p : Par K) (procs domR domZ : Nat) (k : Nat) : Nat → Nat → Par K := domPar (slabPar p procs k) domR domZ

end Yee
end Pico
