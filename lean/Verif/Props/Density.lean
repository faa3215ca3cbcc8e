import Verif.Props.Neutral

/-! Property C31 for whole starts: the weights of a species in a domain against the density profile of the configuration. -/

set_option linter.unusedSimpArgs false
set_option linter.unusedVariables false

namespace Pico
namespace Pic

open SMB Yee

/-- The density that the configuration asks for at `z`: linear between the left and the right end of the chamber. -/
noncomputable def profile (X : Setup) (s : Species) (z : ℝ) : ℝ := s.left + (s.right - s.left) * (z / (X.env.p.nz * X.env.p.dz))

/-- Where the matter of domain `i` of `dom` along one axis ends: at its last line, one cell before it at the wall. -/
noncomputable def brim (n dom i : Nat) (d : ℝ) : ℝ := if i + 1 = dom then (low n dom (i + 1) - 1) * d else low n dom (i + 1) * d

/-- Physical particles between the lines of domain `(i, j)`: the mean of the density at its two ends times the volume of the hollow
cylinder between its innermost and its outermost filled line. -/
noncomputable def matter (X : Setup) (s : Species) (i j : Nat) : ℝ :=
  let E := X.env
  (profile X s (low E.p.nz E.domZ j * E.p.dz) + profile X s (low E.p.nz E.domZ (j + 1) * E.p.dz)) / 2 *
    (E.e.pi * (brim E.p.nr E.domR i E.p.dr ^ 2 - (low E.p.nr E.domR i * E.p.dr) ^ 2) * (brim E.p.nz E.domZ j E.p.dz - low E.p.nz E.domZ j * E.p.dz))

/-- **C31**, the densities at the ends of a domain are those of the configured profile. -/
theorem C31_profile {X : Setup} (h : X.Sane) (s : Species) {i j : Nat} (hi : i < X.env.domR) (hj : j < X.env.domZ) :
    leftOf X i j s = profile X s (low X.env.p.nz X.env.domZ j * X.env.p.dz) ∧
    rightOf X i j s = profile X s (low X.env.p.nz X.env.domZ (j + 1) * X.env.p.dz) := by
  have g := geom_eq h.chamber i j
  have m : low X.env.p.nz X.env.domZ j ≤ low X.env.p.nz X.env.domZ (j + 1) := low_mono (by omega)
  unfold leftOf rightOf Place.localDensity profile
  rw [g]
  dsimp only
  have e : low X.env.p.nz X.env.domZ j + hgt X.env.p.nz X.env.domZ j = low X.env.p.nz X.env.domZ (j + 1) := by
    unfold hgt; omega
  rw [e]
  constructor <;> ring

/-- **C31** for whole starts: whatever the placement and the division of the chamber, a species that has macroparticles in a domain has
exactly the weight there that the configured profile asks for, up to the row and the column of cells at the outer and the right wall
that are left empty (`_partial`: the last cell at these two walls, C31_wall_fails). -/
theorem C31_start_partial {X : Setup} (h : X.Sane) {S : State} (st : Starts X S) {i j : Nat} (hi : i < X.env.domR) (hj : j < X.env.domZ)
    {s : Species} (hs : s ∈ X.species) {sp : Sp} (hsp : sp ∈ S.D i j) (e : s.id = sp.id) (ne : sp.parts ≠ []) :
    (sp.parts.map fun o => (S.heap o.tag).weight).sum = matter X s i j := by
  obtain ⟨n, ps, a, b, c⟩ := distributed_mark (st.plasma i j hi hj sp hsp s hs e)
  have t := total_mark c
  rw [placed_total h hi hj hs a b, if_neg] at t
  swap
  · rintro rfl
    simp at c
    exact ne c
  have t' : (sp.parts.map fun o => (S.heap o.tag).weight).sum = Place.totalWeight (sp.parts.map fun o => S.heap o.tag) := by
    unfold Place.totalWeight
    rw [List.map_map]
    rfl
  rw [t', t, (C31_profile h s hi hj).1, (C31_profile h s hi hj).2]
  have G := geom_good h.chamber hi hj
  unfold Place.nTotal Place.zSize
  rw [Place.whole_sizes (by have := G.nz; omega), geom_eq h.chamber i j, walls_eq h.chamber i j]
  dsimp only
  have mz : low X.env.p.nz X.env.domZ j ≤ low X.env.p.nz X.env.domZ (j + 1) := low_mono (by omega)
  have mr : low X.env.p.nr X.env.domR i ≤ low X.env.p.nr X.env.domR (i + 1) := low_mono (by omega)
  have ez : ((hgt X.env.p.nz X.env.domZ j : Nat) : ℝ) = low X.env.p.nz X.env.domZ (j + 1) - low X.env.p.nz X.env.domZ j := by
    unfold hgt; push_cast [mz]; ring
  have er : (low X.env.p.nr X.env.domR i + hgt X.env.p.nr X.env.domR i) = low X.env.p.nr X.env.domR (i + 1) := by
    unfold hgt; omega
  rw [ez, er]
  unfold matter brim
  have c1 : decide (i = X.env.domR - 1) = decide (i + 1 = X.env.domR) := by congr 1; apply propext; omega
  have c2 : decide (j = X.env.domZ - 1) = decide (j + 1 = X.env.domZ) := by congr 1; apply propext; omega
  rw [c1, c2]
  by_cases k1 : i + 1 = X.env.domR <;> by_cases k2 : j + 1 = X.env.domZ <;> simp only [k1, k2, decide_true, decide_false, if_true, if_false, reduceIte, Bool.false_eq_true] <;> ring

/-! ### Non-vacuity -/

/-- A hundred macroparticles, four domains, a density that rises from 1 to 2: the plasma of the lower left domain and its weight. -/
example : ∃ S, Starts (exSetup (exEnv 2 2 1) 100 .flat []) S ∧ ∃ sp ∈ S.D 0 0, sp.parts ≠ [] ∧
    (sp.parts.map fun o => (S.heap o.tag).weight).sum = (1 + 3 / 2) / 2 * ((exEnv 2 2 1).e.pi * (low (exEnv 2 2 1).p.nr 2 1 * (exEnv 2 2 1).p.dr) ^ 2 *
      (low (exEnv 2 2 1).p.nz 2 1 * (exEnv 2 2 1).p.dz)) := by
  have s := exSetup_sane (E := exEnv 2 2 1) (exEnv_chamber ex_div2 1) rfl 100 .flat (beams := []) List.nodup_nil (by simp)
  have c := exSetup_cold (E := exEnv 2 2 1) rfl 100 .flat []
  obtain ⟨S, h⟩ := C110_exists s (fun x hx => .inr (c x hx)) (exSetup_drawable rfl (by norm_num) (by norm_num [exEnv]) .flat [])
  have hid : 7 ∈ (S.D 0 0).map Sp.id := by
    rw [h.lists]
    exact List.mem_cons_self
  obtain ⟨sp, hsp, esp⟩ := List.mem_map.mp hid
  have hm : (⟨7, 100, 1, 2, 1/100⟩ : Species) ∈ (exSetup (exEnv 2 2 1) 100 .flat []).species := List.mem_singleton.mpr rfl
  have i0 : 0 < (exSetup (exEnv 2 2 1) 100 .flat []).env.domR := by show 0 < 2; decide
  have j0 : 0 < (exSetup (exEnv 2 2 1) 100 .flat []).env.domZ := by show 0 < 2; decide
  have ne : sp.parts ≠ [] := by
    intro e
    obtain ⟨n, ps, a, b, m⟩ := distributed_mark (h.plasma 0 0 i0 j0 sp hsp _ hm esp.symm)
    have n1 : n = 25 := by
      have : n = ⌊(100 : ℝ) / ((2 : Nat) : ℝ) / ((2 : Nat) : ℝ)⌋₊ := a.2
      rw [this]
      norm_num
    subst n1
    have e0 : ps = [] := by
      rw [e] at m
      simpa using m.symm
    obtain ⟨ur, uz, f, b⟩ := b
    unfold Place.fill Place.setWeight at b
    split_ifs at b with c1 c2
    · simp [Place.random] at c1
    · have := Res.ok.inj b
      rw [e0] at this
      simp [Place.random] at this
  refine ⟨S, h, sp, hsp, ne, ?_⟩
  rw [C31_start_partial s h i0 j0 hm hsp esp.symm ne]
  norm_num [matter, profile, brim, exSetup, exEnv, low]

end Pic
end Pico
