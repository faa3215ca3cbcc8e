import Verif.Spec.Pic
import Verif.Spec.Fields
import Verif.Spec.Current

/-! Specification vocabulary for the field laws in whole runs: the fields of the whole chamber, the charge of the particles at the
nodes of the grid, paths in general position. -/

namespace Pico
namespace Pic

open SMB Yee

/-- The grids of the domains put together: the value in cell `(X, Y)` of the chamber is the one of the domain that has the cell. -/
def glue (E : Env) (M : Solvers ℝ) : Mem ℝ := fun c X Y =>
  M (X.toNat / (E.p.nr / E.domR)) (Y.toNat / (E.p.nz / E.domZ)) c (X - low E.p.nr E.domR (X.toNat / (E.p.nr / E.domR)))
    (Y - low E.p.nz E.domZ (Y.toNat / (E.p.nz / E.domZ)))

/-- Charge of all particles of the chamber in the cell of node `(X, Y)`; the particles are rings of one cell size. -/
noncomputable def chargeAt (E : Env) (S : State) (X Y : Int) : ℝ :=
  ∑ i ∈ Finset.range E.domR, ∑ j ∈ Finset.range E.domZ, ((S.D i j).map fun sp => (sp.parts.map fun o =>
    VB.nodeCharge (ctxOf E.p 0 E.e).g (E.charge sp.id * (S.heap o.tag).weight) (S.heap o.tag).posR (S.heap o.tag).posZ X Y).sum).sum

/-- Charge density at node `(X, Y)`: the charge over the volume of the cell of the node, which is a ring around the axis
(a cylinder of half the radius for the nodes on the axis). -/
noncomputable def density (E : Env) (S : State) (X Y : Int) : ℝ :=
  chargeAt E S X Y / (VB.faceZ E.e.pi (ctxOf E.p 0 E.e).g X * E.p.dz)

/-- Insulators everywhere: there is a permittivity, no conductivity. -/
def Insulating (E : Env) (S : State) : Prop :=
  ∀ i j x y, CellOf E.p E.domR E.domZ i j x y → S.M i j .eps x y ≠ 0 ∧ S.M i j .sig x y = 0

/-- There are no currents yet. -/
def NoCurrents (E : Env) (S : State) : Prop :=
  ∀ i j x y, CellOf E.p E.domR E.domZ i j x y → S.M i j .jr x y = 0 ∧ S.M i j .jz x y = 0

/-- The paths of all particles in the last step are in general position with respect to the cells and the domains. -/
def GeneralPaths (E : Env) (S : State) : Prop :=
  ∀ i j, i < E.domR → j < E.domZ → ∀ sp ∈ S.D i j, ∀ o ∈ sp.parts,
    (depositOf (E.charge sp.id) (S.heap o.tag)).General (ctxOf E.p 0 E.e).g E.e.mnzl ∧
    ¬ CutsCorner E.p E.domR E.domZ i j (depositOf (E.charge sp.id) (S.heap o.tag))

/-- All fields of all domains are zero. -/
def NoFields (E : Env) (S : State) : Prop :=
  ∀ i j c x y, OverlayOf E.p E.domR E.domZ i j x y → c.isSource = false → S.M i j c x y = 0

end Pic
end Pico
