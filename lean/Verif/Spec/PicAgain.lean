import Verif.Model.PicStart

/-! Specification vocabulary: two executions of the same simulation (C127). -/

namespace Pico
namespace Pic

open SMB Yee

/-- Two states that differ only in the addresses of the particles: in every domain the same fields, currents and media, and for each
species the same particles in the same order. -/
structure Readdressed (E : Env) (S T : State) : Prop where
  fields : ∀ i j, i < E.domR → j < E.domZ → S.M i j = T.M i j
  particles : ∀ i j, i < E.domR → j < E.domZ →
    (S.D i j).map (fun sp => (sp.id, sp.parts.map fun o => S.heap o.tag)) = (T.D i j).map (fun sp => (sp.id, sp.parts.map fun o => T.heap o.tag))

/-- No two entries of the lists of particles are the same object. -/
def Distinct (E : Env) (S : State) : Prop :=
  ((idx2 0 E.domR 0 E.domZ).flatMap fun q => (S.D q.1 q.2).flatMap fun sp => sp.parts.map (·.tag)).Nodup

/-- The same build and configuration; the random numbers may be different ones. -/
def Setup.Redrawn (X Y : Setup) : Prop :=
  ∃ ur uz us ws rs, Y = { X with ur := ur, uz := uz, us := us, ws := ws, rs := rs }

/-- One execution of the main loop from the state `S` on: `hist n` is the state after `n` steps. -/
structure Execution (E : Env) (S : State) (hist : Nat → State) : Prop where
  first : hist 0 = S
  next : ∀ n, Step E (hist n) (hist (n + 1))

end Pic
end Pico
