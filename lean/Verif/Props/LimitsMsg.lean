import Verif.Props.Limits
import Verif.Model.Config

/-! # C48: the messages about the sizes of cells, of the volume and about the macroparticles -/

set_option linter.unusedSimpArgs false
set_option linter.unusedVariables false
set_option linter.unusedSectionVars false

namespace Pico
namespace Limits

open Classical in
/-- The length the program compares with: the density of the electrons stands over the temperature of the ions and the other way
round (`C48_debye_fails`). -/
noncomputable def usedLength (cd ne ni te ti : ℝ) : ℝ := if te = 0 ∨ ti = 0 then 0 else cd / Real.sqrt (ne / ti + ni / te)

/-- **C48 (partial), other messages.**  If the program goes on, then: for electrons with a temperature it tells that the cells
are too large exactly if a side is longer than a hundred of its lengths, that the volume is too small exactly if it is shorter
than a hundred of them in a direction, and that it is too large exactly if it is longer, in a direction, than a hundred of them
times the number of macroparticles.  It tells that there are too few macroparticles exactly if there are fewer than ten times the
square of the number of rows.  Missing: the Debye length itself and the number of cells. -/
theorem C48_messages_partial (cl cp cd : ℝ) (c : Conf) (m : List Msg) (h : check cl cp cd c = .ok m) :
    let ne := (electrons c.species).1
    let te := (electrons c.species).2
    let ni := (ions c.species).1
    let ti := (ions c.species).2
    let ld := usedLength cd ne ni te ti
    (Msg.gridSize ∈ m ↔ te ≠ 0 ∧ (100 * ld < c.dr ∨ 100 * ld < c.dz)) ∧
    (Msg.smallSystem ∈ m ↔ te ≠ 0 ∧ (c.sizeR < 100 * ld ∨ c.sizeZ < 100 * ld)) ∧
    (Msg.largeSystem ∈ m ↔ te ≠ 0 ∧ (100 * ld * (c.amounts.sum : ℝ) < c.sizeR ∨ 100 * ld * (c.amounts.sum : ℝ) < c.sizeZ)) ∧
    (Msg.fewParticles ∈ m ↔ c.amounts.sum < 10 * c.nr ^ 2) := by
  intro ne te ni ti ld
  obtain ⟨⟨b1, b2⟩, n1, n2⟩ := (check_ok_iff cl cp cd c).1 ⟨m, h⟩
  have hd : debyeLength cd ne ni ti te = .ok ld := by
    show debyeLength cd (electrons c.species).1 (ions c.species).1 (ions c.species).2 (electrons c.species).2 = .ok ld
    unfold debyeLength
    rw [if_neg (not_le.2 n1), if_neg (not_le.2 n2)]
    congr 1
    show _ = usedLength _ _ _ _ _
    unfold usedLength
    by_cases z : (electrons c.species).2 = 0 ∨ (ions c.species).2 = 0
    · rw [if_pos z, if_pos z.symm]
    · rw [if_neg z, if_neg fun q => z q.symm]
  unfold check at h
  rw [if_neg (by rw [b1, b2]; decide)] at h
  change (if ne = 0 then _ else _) = _ at h
  rw [if_neg n1.ne'] at h
  change (debyeLength cd ne ni ti te >>= _) = _ at h
  rw [hd, Res.ok_bind] at h
  change (Res.ok ((if maxTime cl cp c < c.step then [Msg.timeStep] else []) ++
    (if te ≠ 0 then
      (if ld * 100 < c.dr ∨ ld * 100 < c.dz then [Msg.gridSize] else []) ++
      (if c.sizeR < ld * 100 ∨ c.sizeZ < ld * 100 then [Msg.smallSystem] else []) ++
      (if ld * (c.amounts.sum : ℝ) * 100 < c.sizeR ∨ ld * (c.amounts.sum : ℝ) * 100 < c.sizeZ then [Msg.largeSystem] else [])
      else []) ++
    (if ((c.amounts.sum : ℕ) : ℝ) < ((c.nr * c.nr * 10 : Nat) : ℝ) then [Msg.fewParticles] else [])) : Res (List Msg)) =
      .ok m at h
  have e := (Res.ok.inj h).symm
  clear h
  clear_value ne te ni ti ld
  have fp : ((c.amounts.sum : ℕ) : ℝ) < ((c.nr * c.nr * 10 : Nat) : ℝ) ↔ c.amounts.sum < 10 * c.nr ^ 2 := by
    rw [Nat.cast_lt]
    have : c.nr * c.nr * 10 = 10 * c.nr ^ 2 := by ring
    rw [this]
  have r1 : ld * 100 = 100 * ld := by ring
  have r2 : ld * (c.amounts.sum : ℝ) * 100 = 100 * ld * (c.amounts.sum : ℝ) := by ring
  rw [e]
  simp only [List.mem_append]
  rw [r1, r2]
  by_cases t0 : te = 0
  · simp only [t0, ne_eq, not_true_eq_false, if_false, false_and, iff_false]
    refine ⟨?_, ?_, ?_, ?_⟩
    · split_ifs <;> simp
    · split_ifs <;> simp
    · split_ifs <;> simp
    · rw [← fp]; split_ifs <;> simp_all
  · simp only [ne_eq, t0, not_false_eq_true, if_true, true_and, List.mem_append]
    refine ⟨?_, ?_, ?_, ?_⟩
    · constructor
      · intro q; by_contra w; rw [if_neg w] at q; revert q; split_ifs <;> simp
      · intro q; rw [if_pos q]; simp
    · constructor
      · intro q; by_contra w; rw [if_neg w] at q; revert q; split_ifs <;> simp
      · intro q; rw [if_pos q]; simp
    · constructor
      · intro q; by_contra w; rw [if_neg w] at q; revert q; split_ifs <;> simp
      · intro q; rw [if_pos q]; simp
    · rw [← fp]
      constructor
      · intro q; by_contra w; rw [if_neg w] at q; revert q; split_ifs <;> simp
      · intro q; rw [if_pos q]; simp

/-- Where C48 fails: the rows are counted instead of the cells.  A long volume with far fewer than ten macroparticles per cell
is accepted without a message, and a short one with more than ten in each is complained about. -/
theorem C48_particles_fails (cl cp cd : ℝ) (c : Conf) (nz : Nat) (m : List Msg) (h : check cl cp cd c = .ok m) :
    (10 * c.nr ^ 2 ≤ c.amounts.sum → c.amounts.sum < 10 * (c.nr * nz) → Msg.fewParticles ∉ m) ∧
    (c.amounts.sum < 10 * c.nr ^ 2 → 10 * (c.nr * nz) ≤ c.amounts.sum → Msg.fewParticles ∈ m) := by
  have k := (C48_messages_partial cl cp cd c m h).2.2.2
  exact ⟨fun a _ b => absurd (k.1 b) (by omega), fun a _ => k.2 a⟩

/-- **C48 (partial), from the configuration.**  The messages follow from what the configuration says: the sides of its cells, its
time step, the sizes of its volume, the densities and temperatures of its species and the numbers of their macroparticles (those
of the beams do not count). -/
theorem C48_configured_partial (cl cp cd : ℝ) (c : Config.Conf ℝ) (m : List Msg)
    (h : check cl cp cd (Config.limitsOf c) = .ok m) :
    let sp : List Specie := c.species.map fun s => ⟨s.name, s.mass, s.left, s.right, s.temperature⟩
    let te := (electrons sp).2
    let ld := usedLength cd (electrons sp).1 (ions sp).1 te (ions sp).2
    (Msg.timeStep ∈ m ↔ (c.geo.cellR / cl < c.time.step ∨ c.geo.cellZ / cl < c.time.step ∨
      2 / plasmaFrequency cp (electrons sp).1 / 100 < c.time.step)) ∧
    (Msg.gridSize ∈ m ↔ te ≠ 0 ∧ (100 * ld < c.geo.cellR ∨ 100 * ld < c.geo.cellZ)) ∧
    (Msg.smallSystem ∈ m ↔ te ≠ 0 ∧ (c.geo.sizeR < 100 * ld ∨ c.geo.sizeZ < 100 * ld)) ∧
    (Msg.largeSystem ∈ m ↔ te ≠ 0 ∧ (100 * ld * (c.amounts.1.sum : ℝ) < c.geo.sizeR ∨
      100 * ld * (c.amounts.1.sum : ℝ) < c.geo.sizeZ)) ∧
    (Msg.fewParticles ∈ m ↔ c.amounts.1.sum < 10 * c.geo.nr ^ 2) :=
  ⟨C48_step_partial cl cp cd _ m h, C48_messages_partial cl cp cd _ m h⟩

/-- A configuration of 64 rows with twenty macroparticles: the message about macroparticles is printed. -/
example : ∃ m, check 1 1 1 exConf = .ok m ∧ Msg.fewParticles ∈ m := by
  obtain ⟨m, h⟩ := exConf_ok
  exact ⟨m, h, (C48_messages_partial 1 1 1 exConf m h).2.2.2.2 (by decide)⟩

end Limits
end Pico
