import Verif.Model.Velocity
import Verif.Lemmas.Rel
import Mathlib.Tactic.NormNum
import Mathlib.Tactic.Linarith
import Mathlib.Tactic.Positivity
import Mathlib.Tactic.FieldSimp

/-!
# Initial velocities (C78, C79)

Specification: the length of a velocity is that of `Vec3` (sum of the squares of the components), the speed of light is
`c`, the classical kinetic energy is `mass * v² / 2` and `q * T` is the temperature in joules.
-/

set_option linter.unusedSectionVars false
set_option linter.unusedSimpArgs false
set_option linter.unusedVariables false

namespace Pico
namespace Vel

/-- Constants that make sense: everything positive and a limit between the two formulas below a third of `c` (the
program has `5e7` and `3e8`). -/
structure Cst.Good (k : Cst) : Prop where
  c : 0 < k.c
  lim : 0 < k.lim
  lim3 : 3 * k.lim < k.c
  q : 0 < k.q
  mass : 0 < k.mass

/-- The energy `e` (in electronvolts) divided by `mass * c`: the quantity compared with the limit. -/
noncomputable def ratio (k : Cst) (e : ℝ) : ℝ := e * k.q / (k.mass * k.c)

/-- Random numbers from `[-1, 1]`. -/
def InCube (r : ℝ × ℝ × ℝ) : Prop := |r.1| ≤ 1 ∧ |r.2.1| ≤ 1 ∧ |r.2.2| ≤ 1

theorem ratio_eq (k : Cst) (e : ℝ) : e * (k.q / (k.mass * k.c)) = ratio k e := by
  unfold ratio; ring

theorem classic_eq {k : Cst} (G : k.Good) (e : ℝ) : e * (2 * k.q / k.mass) = 2 * ratio k e * k.c := by
  have := G.mass.ne'; have := G.c.ne'
  unfold ratio
  field_simp

theorem ratio_nonneg {k : Cst} (G : k.Good) {e : ℝ} (h : 0 ≤ e) : 0 ≤ ratio k e := by
  have := G.mass; have := G.c; have := G.q
  unfold ratio
  positivity

/-- The relativistic formula. -/
theorem switch_fast {k : Cst} (G : k.Good) {u e : ℝ} (h : k.lim < u) :
    ∃ s, switch k u e = some s ∧ 0 < s ∧ s ^ 2 * (k.c ^ 2 + u ^ 2) = u ^ 2 * k.c ^ 2 := by
  have hu : 0 < u := G.lim.trans h
  obtain ⟨p, e1⟩ := Rel.inv_spec (c := k.c) (v2 := u ^ 2) G.c (by positivity)
  refine ⟨_, by unfold switch; rw [if_pos h], by positivity, ?_⟩
  rw [mul_pow, mul_assoc, e1]

/-- The classical formula. -/
theorem switch_slow {k : Cst} (G : k.Good) {u e : ℝ} (h : u ≤ k.lim) (he : 0 ≤ e) :
    ∃ s, switch k u e = some s ∧ 0 ≤ s ∧ s ^ 2 = 2 * ratio k e * k.c := by
  have hr := ratio_nonneg G he
  have p : 0 ≤ 2 * ratio k e * k.c := by have := G.c; positivity
  refine ⟨Real.sqrt (2 * ratio k e * k.c), ?_, Real.sqrt_nonneg _, Real.sq_sqrt p⟩
  unfold switch
  rw [if_neg (not_lt.mpr h), classic_eq G, if_neg (not_lt.mpr p)]

theorem spread_len2 (s : ℝ) (r : ℝ × ℝ × ℝ) :
    (⟨r.1 * s, r.2.1 * s, r.2.2 * s⟩ : Vec3 ℝ).length2 = (r.1 ^ 2 + r.2.1 ^ 2 + r.2.2 ^ 2) * s ^ 2 := by
  unfold Vec3.length2; ring

theorem cube_le {r : ℝ × ℝ × ℝ} (h : InCube r) : r.1 ^ 2 + r.2.1 ^ 2 + r.2.2 ^ 2 ≤ 3 := by
  obtain ⟨h1, h2, h3⟩ := h
  have := (sq_le_one_iff_abs_le_one _).mpr h1
  have := (sq_le_one_iff_abs_le_one _).mpr h2
  have := (sq_le_one_iff_abs_le_one _).mpr h3
  linarith

theorem cube_ge {a : ℝ} (ha : 0 ≤ a) {r : ℝ × ℝ × ℝ} (h : a ≤ |r.1| ∧ a ≤ |r.2.1| ∧ a ≤ |r.2.2|) :
    3 * a ^ 2 ≤ r.1 ^ 2 + r.2.1 ^ 2 + r.2.2 ^ 2 := by
  obtain ⟨h1, h2, h3⟩ := h
  have e (x : ℝ) (hx : a ≤ |x|) : a ^ 2 ≤ x ^ 2 := by rw [← sq_abs x]; gcongr
  have := e _ h1; have := e _ h2; have := e _ h3
  linarith

/-- Scale of the two simple distributions: its square is `2 u c / 2 = u c` below the limit, with `u` twice the
ratio. -/
theorem plain_slow {k : Cst} (G : k.Good) {T : ℝ} (hT : 0 ≤ T) (h : 2 * ratio k T ≤ k.lim) :
    ∃ s, plainScale k T = some s ∧ 0 ≤ s ∧ s ^ 2 = 2 * ratio k T * k.c := by
  unfold plainScale
  rw [ratio_eq]
  exact switch_slow G (by linarith) hT

theorem plain_fast {k : Cst} (G : k.Good) {T : ℝ} (h : k.lim < 2 * ratio k T) :
    ∃ s, plainScale k T = some s ∧ 0 < s ∧ s ^ 2 * (k.c ^ 2 + (2 * ratio k T) ^ 2) = (2 * ratio k T) ^ 2 * k.c ^ 2 := by
  unfold plainScale
  rw [ratio_eq, mul_comm (ratio k T) 2]
  exact switch_fast G h

/-- Bound of the scale: three times its square stays below `c²` while `2 u² < c²`. -/
theorem plain_lt {k : Cst} (G : k.Good) {T : ℝ} (hT : 0 ≤ T) (h : 2 * (2 * ratio k T) ^ 2 < k.c ^ 2) :
    ∃ s, plainScale k T = some s ∧ 3 * s ^ 2 < k.c ^ 2 := by
  have hc := G.c
  rcases le_or_gt (2 * ratio k T) k.lim with hs | hs
  · obtain ⟨s, e, h0, e2⟩ := plain_slow G hT hs
    refine ⟨s, e, ?_⟩
    rw [e2]
    nlinarith [G.lim3]
  · obtain ⟨s, e, h0, e2⟩ := plain_fast G hs
    refine ⟨s, e, ?_⟩
    set u := 2 * ratio k T with hu
    have p : 0 < k.c ^ 2 + u ^ 2 := by positivity
    by_contra hn
    have : k.c ^ 2 * (k.c ^ 2 + u ^ 2) ≤ 3 * (s ^ 2 * (k.c ^ 2 + u ^ 2)) := by
      have := mul_le_mul_of_nonneg_right (not_lt.mp hn) p.le
      linarith
    rw [e2] at this
    have hc2 : 0 < k.c ^ 2 := by positivity
    nlinarith

/-- Above it: three times its square exceeds `c²`. -/
theorem plain_gt {k : Cst} (G : k.Good) {T : ℝ} (h0 : 0 ≤ T) (h : k.c ^ 2 < 2 * (2 * ratio k T) ^ 2) :
    ∃ s, plainScale k T = some s ∧ k.c ^ 2 < 3 * s ^ 2 := by
  have hc := G.c
  have hr := ratio_nonneg G h0
  have hs : k.lim < 2 * ratio k T := by
    by_contra hn
    have h1 := not_lt.mp hn
    have : (2 * ratio k T) ^ 2 ≤ k.lim ^ 2 := by gcongr
    nlinarith [G.lim3, G.lim]
  obtain ⟨s, e, h0, e2⟩ := plain_fast G hs
  refine ⟨s, e, ?_⟩
  set u := 2 * ratio k T with hu
  have p : 0 < k.c ^ 2 + u ^ 2 := by positivity
  by_contra hn
  have : 3 * (s ^ 2 * (k.c ^ 2 + u ^ 2)) ≤ k.c ^ 2 * (k.c ^ 2 + u ^ 2) := by
    have := mul_le_mul_of_nonneg_right (not_lt.mp hn) p.le
    linarith
  rw [e2] at this
  have hc2 : 0 < k.c ^ 2 := by positivity
  nlinarith

theorem norm_sq : (0.7071067811865475 : ℝ) ^ 2 < 1 / 2 ∧ (0.4999 : ℝ) < 0.7071067811865475 ^ 2 := by norm_num

/-- Scale of the thermal distribution. -/
theorem thermal_lt {k : Cst} (G : k.Good) {e : ℝ} (he : 0 ≤ e) (h : ratio k e ^ 2 ≤ 2 * k.c ^ 2) :
    ∃ s, thermalScale k (some e) = some s ∧ 3 * s ^ 2 < k.c ^ 2 := by
  have hc := G.c
  have hc2 : 0 < k.c ^ 2 := by positivity
  obtain ⟨n1, -⟩ := norm_sq
  unfold thermalScale
  dsimp only
  rw [ratio_eq]
  rcases le_or_gt (ratio k e) k.lim with hs | hs
  · obtain ⟨s, e1, h0, e2⟩ := switch_slow G (e := e) hs he
    refine ⟨_, by rw [e1]; rfl, ?_⟩
    rw [mul_pow, e2]
    have hr := ratio_nonneg G he
    have : 2 * ratio k e * k.c * 0.7071067811865475 ^ 2 ≤ 2 * ratio k e * k.c * (1 / 2) := by gcongr
    nlinarith [G.lim3]
  · obtain ⟨s, e1, h0, e2⟩ := switch_fast G (e := e) hs
    refine ⟨_, by rw [e1]; rfl, ?_⟩
    rw [mul_pow]
    have p : 0 < k.c ^ 2 + ratio k e ^ 2 := by positivity
    have hs2 : 3 * s ^ 2 ≤ 2 * k.c ^ 2 := by
      by_contra hn
      have : 2 * k.c ^ 2 * (k.c ^ 2 + ratio k e ^ 2) < 3 * (s ^ 2 * (k.c ^ 2 + ratio k e ^ 2)) := by
        have := mul_lt_mul_of_pos_right (not_le.mp hn) p
        linarith
      rw [e2] at this
      nlinarith
    have : s ^ 2 * 0.7071067811865475 ^ 2 < s ^ 2 * (1 / 2) := by gcongr
    linarith

/-- **C78**, partial: particles of a species start below the speed of light.  `rectangular`, for every temperature
below `m c² / (2 √2)` (in electronvolts: `u = 2 q T / (m c)` with `2 u² < c²`) and all random numbers. -/
theorem C78_rectangular_partial {k : Cst} (G : k.Good) {T : ℝ} (hT : 0 ≤ T) (h : 2 * (2 * ratio k T) ^ 2 < k.c ^ 2)
    (rs : List (ℝ × ℝ × ℝ)) (hr : ∀ r ∈ rs, InCube r) :
    ∃ vs : List (Vec3 ℝ), rectangular k T rs = .ok (vs.map some) ∧ vs.length = rs.length ∧ ∀ v ∈ vs, v.length2 < k.c ^ 2 := by
  obtain ⟨s, e, hs⟩ := plain_lt G hT h
  refine ⟨rs.map fun r => ⟨r.1 * s, r.2.1 * s, r.2.2 * s⟩, ?_, by simp, ?_⟩
  · unfold rectangular
    rw [if_neg G.mass.ne', e, List.map_map]
    rfl
  · intro v hv
    obtain ⟨r, hm, rfl⟩ := List.mem_map.mp hv
    rw [spread_len2]
    have := cube_le (hr r hm)
    have : (r.1 ^ 2 + r.2.1 ^ 2 + r.2.2 ^ 2) * s ^ 2 ≤ 3 * s ^ 2 := by gcongr
    linarith

/-- The hypothesis on the temperature is needed: above it (`c ≤ u`) every particle whose three random numbers are at
least `9/10` in size starts faster than light, and its Lorentz factor aborts the program. -/
theorem C78_rectangular_fails {k : Cst} (G : k.Good) {T : ℝ} (hT : 0 ≤ T) (h : k.c ≤ 2 * ratio k T)
    (r : ℝ × ℝ × ℝ) (hr : 9/10 ≤ |r.1| ∧ 9/10 ≤ |r.2.1| ∧ 9/10 ≤ |r.2.2|) :
    ∃ v : Vec3 ℝ, rectangular k T [r] = .ok [some v] ∧ k.c ^ 2 < v.length2 ∧ Rel.lorenzFactor k.c v.length2 = .fatal := by
  have hc := G.c
  have hs : k.lim < 2 * ratio k T := by linarith [G.lim3, G.lim]
  obtain ⟨s, e, h0, e2⟩ := plain_fast G hs
  refine ⟨⟨r.1 * s, r.2.1 * s, r.2.2 * s⟩, ?_, ?_⟩
  · unfold rectangular
    rw [if_neg G.mass.ne', e]
    rfl
  · have key : k.c ^ 2 < (⟨r.1 * s, r.2.1 * s, r.2.2 * s⟩ : Vec3 ℝ).length2 := by
      rw [spread_len2]
      have h3 := cube_ge (by norm_num) hr
      set u := 2 * ratio k T with hu
      have hu2 : k.c ^ 2 ≤ u ^ 2 := by gcongr
      have p : 0 < k.c ^ 2 + u ^ 2 := by positivity
      have hc2 : 0 < k.c ^ 2 := by positivity
      have hs2 : k.c ^ 2 ≤ 2 * s ^ 2 := by
        by_contra hn
        have : 2 * (s ^ 2 * (k.c ^ 2 + u ^ 2)) < k.c ^ 2 * (k.c ^ 2 + u ^ 2) := by
          have := mul_lt_mul_of_pos_right (not_le.mp hn) p
          linarith
        rw [e2] at this
        nlinarith
      have : 3 * (9/10 : ℝ) ^ 2 * s ^ 2 ≤ (r.1 ^ 2 + r.2.1 ^ 2 + r.2.2 ^ 2) * s ^ 2 := by gcongr
      nlinarith
    exact ⟨key, Rel.lorenz_gt hc key⟩

/-- `eigen`: all particles start with the same velocity, below the speed of light exactly while `2 u² < c²`. -/
theorem C78_eigen_partial {k : Cst} (G : k.Good) {T : ℝ} (hT : 0 ≤ T) (h : 2 * (2 * ratio k T) ^ 2 ≠ k.c ^ 2) (n : Nat) :
    ∃ v : Vec3 ℝ, eigen k T n = .ok (List.replicate n (some v)) ∧
      (v.length2 < k.c ^ 2 ↔ 2 * (2 * ratio k T) ^ 2 < k.c ^ 2) := by
  rcases lt_or_gt_of_ne h with hl | hl
  · obtain ⟨s, e, hs⟩ := plain_lt G hT hl
    refine ⟨⟨s, s, s⟩, by unfold eigen; rw [if_neg G.mass.ne', e]; rfl, ?_⟩
    constructor
    · intro _; exact hl
    · intro _; unfold Vec3.length2; dsimp only; nlinarith
  · obtain ⟨s, e, hs⟩ := plain_gt G hT hl
    refine ⟨⟨s, s, s⟩, by unfold eigen; rw [if_neg G.mass.ne', e]; rfl, ?_⟩
    constructor
    · intro h1; unfold Vec3.length2 at h1; dsimp only at h1; nlinarith
    · intro h1; linarith

/-- So above it a run with this distribution cannot start: the Lorentz factor of every particle aborts the
program. -/
theorem C78_eigen_fails {k : Cst} (G : k.Good) {T : ℝ} (hT : 0 ≤ T) (h : k.c ^ 2 < 2 * (2 * ratio k T) ^ 2) (n : Nat) :
    ∃ v : Vec3 ℝ, eigen k T n = .ok (List.replicate n (some v)) ∧ k.c ^ 2 < v.length2 ∧
      Rel.lorenzFactor k.c v.length2 = .fatal := by
  obtain ⟨s, e, hs⟩ := plain_gt G hT h
  have key : k.c ^ 2 < (⟨s, s, s⟩ : Vec3 ℝ).length2 := by unfold Vec3.length2; dsimp only; nlinarith
  exact ⟨⟨s, s, s⟩, by unfold eigen; rw [if_neg G.mass.ne', e]; rfl, key, Rel.lorenz_gt G.c key⟩

/-- `thermal` (the default): below the speed of light for all random numbers if every sampled energy is a number
between zero and `√2 m c²`, and there is one for every particle. -/
theorem C78_thermal_partial {k : Cst} (G : k.Good) (es : List ℝ) (he : ∀ e ∈ es, 0 ≤ e ∧ ratio k e ^ 2 ≤ 2 * k.c ^ 2)
    (rs : List (ℝ × ℝ × ℝ)) (hr : ∀ r ∈ rs, InCube r) (hl : rs.length ≤ es.length) :
    ∃ vs : List (Vec3 ℝ), thermal k (es.map some) rs = .ok (vs.map some) ∧ vs.length = rs.length ∧
      ∀ v ∈ vs, v.length2 < k.c ^ 2 := by
  induction rs generalizing es with
  | nil => exact ⟨[], by cases es <;> rfl, rfl, by simp⟩
  | cons r rs ih =>
    cases es with
    | nil => simp at hl
    | cons e es =>
      obtain ⟨vs, e1, e2, e3⟩ := ih es (fun x hx => he x (List.mem_cons_of_mem _ hx))
        (fun x hx => hr x (List.mem_cons_of_mem _ hx)) (by simpa using hl)
      obtain ⟨s, f1, f2⟩ := thermal_lt G (he e List.mem_cons_self).1 (he e List.mem_cons_self).2
      refine ⟨⟨r.1 * s, r.2.1 * s, r.2.2 * s⟩ :: vs, ?_, by simp [e2], ?_⟩
      · rw [List.map_cons, thermal, if_neg G.mass.ne', e1, f1]
        rfl
      · intro v hv
        rcases List.mem_cons.mp hv with rfl | hv
        · rw [spread_len2]
          have := cube_le (hr r List.mem_cons_self)
          have : (r.1 ^ 2 + r.2.1 ^ 2 + r.2.2 ^ 2) * s ^ 2 ≤ 3 * s ^ 2 := by gcongr
          linarith
        · exact e3 v hv

/-- A sampled energy of `2 m c²` or more gives a particle faster than light whenever its random numbers are at least
`19/20` in size. -/
theorem C78_thermal_fails {k : Cst} (G : k.Good) {e : ℝ} (he : 0 ≤ e) (h : 2 * k.c ≤ ratio k e)
    (r : ℝ × ℝ × ℝ) (hr : 19/20 ≤ |r.1| ∧ 19/20 ≤ |r.2.1| ∧ 19/20 ≤ |r.2.2|) :
    ∃ v : Vec3 ℝ, thermal k [some e] [r] = .ok [some v] ∧ k.c ^ 2 < v.length2 ∧ Rel.lorenzFactor k.c v.length2 = .fatal := by
  have hc := G.c
  have hs : k.lim < ratio k e := by linarith [G.lim3, G.lim]
  obtain ⟨s, e1, h0, e2⟩ := switch_fast G (e := e) hs
  obtain ⟨-, n2⟩ := norm_sq
  refine ⟨⟨r.1 * (s * 0.7071067811865475), r.2.1 * (s * 0.7071067811865475), r.2.2 * (s * 0.7071067811865475)⟩, ?_, ?_⟩
  · rw [thermal, if_neg G.mass.ne', thermal]
    unfold thermalScale
    dsimp only
    rw [ratio_eq, e1]
    rfl
  · have key : k.c ^ 2 < (⟨r.1 * (s * 0.7071067811865475), r.2.1 * (s * 0.7071067811865475),
        r.2.2 * (s * 0.7071067811865475)⟩ : Vec3 ℝ).length2 := by
      rw [spread_len2, mul_pow]
      have h3 := cube_ge (by norm_num) hr
      set u := ratio k e with hu
      have hu2 : (2 * k.c) ^ 2 ≤ u ^ 2 := by gcongr
      have p : 0 < k.c ^ 2 + u ^ 2 := by positivity
      have hc2 : 0 < k.c ^ 2 := by positivity
      have hs2 : 4 * k.c ^ 2 ≤ 5 * s ^ 2 := by
        by_contra hn
        have : 5 * (s ^ 2 * (k.c ^ 2 + u ^ 2)) < 4 * k.c ^ 2 * (k.c ^ 2 + u ^ 2) := by
          have := mul_lt_mul_of_pos_right (not_le.mp hn) p
          linarith
        rw [e2] at this
        nlinarith
      have : 3 * (19/20 : ℝ) ^ 2 * (s ^ 2 * 0.4999) ≤ (r.1 ^ 2 + r.2.1 ^ 2 + r.2.2 ^ 2) * (s ^ 2 * 0.7071067811865475 ^ 2) := by
        gcongr
      have hs0 : 0 < s ^ 2 := by positivity
      nlinarith
    exact ⟨key, Rel.lorenz_gt hc key⟩

/-- A particle without an energy: undefined behaviour, whatever was sampled. -/
theorem C78_too_few_energies_fails (k : Cst) (hm : k.mass ≠ 0) (es : List (Option ℝ)) (rs : List (ℝ × ℝ × ℝ)) (h : es.length < rs.length) :
    thermal k es rs = .ub := by
  induction es generalizing rs with
  | nil =>
    cases rs with
    | nil => simp at h
    | cons r rs => rfl
  | cons e es ih =>
    cases rs with
    | nil => simp at h
    | cons r rs =>
      rw [thermal, if_neg hm, ih rs (by simpa using h)]
      rfl

/-- A negative sampled energy below the limit gives a velocity that is not a number. -/
theorem C78_negative_energy_fails {k : Cst} (G : k.Good) {e : ℝ} (he : e < 0) (r : ℝ × ℝ × ℝ) :
    thermal k [some e] [r] = .ok [none] := by
  have hneg : ratio k e < 0 := by
    have := G.mass; have := G.c; have := G.q
    unfold ratio
    exact div_neg_of_neg_of_pos (by nlinarith) (by positivity)
  rw [thermal, if_neg G.mass.ne', thermal]
  unfold thermalScale
  dsimp only
  rw [ratio_eq]
  have : switch k (ratio k e) e = none := by
    unfold switch
    rw [if_neg (by linarith [G.lim]), classic_eq G, if_pos (by nlinarith [G.c])]
  rw [this]
  rfl

/-! ### Temperature -/

/-- **C79**: a species of temperature zero starts at rest, in all three distributions. -/
theorem C79_cold {k : Cst} (G : k.Good) (n : Nat) (rs : List (ℝ × ℝ × ℝ)) :
    rectangular k 0 rs = .ok (rs.map fun _ => some ⟨0, 0, 0⟩) ∧
    eigen k 0 n = .ok (List.replicate n (some ⟨0, 0, 0⟩)) ∧
    thermal k (List.replicate rs.length (some 0)) rs = .ok (rs.map fun _ => some ⟨0, 0, 0⟩) := by
  have z : ∀ s : ℝ, 0 ≤ s → s ^ 2 = 0 → s = 0 := fun s _ h => pow_eq_zero_iff (by norm_num) |>.mp h
  have r0 : ratio k 0 = 0 := by unfold ratio; simp
  obtain ⟨s, e, h0, e2⟩ := plain_slow G (le_refl (0 : ℝ)) (by rw [r0]; linarith [G.lim])
  have hs : s = 0 := z s h0 (by rw [e2, r0]; ring)
  subst hs
  refine ⟨?_, ?_, ?_⟩
  · unfold rectangular
    rw [if_neg G.mass.ne', e]
    exact congrArg Res.ok (List.map_congr_left fun r _ => by simp [spread])
  · unfold eigen
    rw [if_neg G.mass.ne', e]
    rfl
  · have t0 : thermalScale k (some 0) = some 0 := by
      unfold thermalScale
      dsimp only
      rw [ratio_eq]
      obtain ⟨s, f, g0, f2⟩ := switch_slow G (u := ratio k 0) (e := 0) (by rw [r0]; exact G.lim.le) le_rfl
      rw [f, z s g0 (by rw [f2, r0]; ring)]
      simp
    induction rs with
    | nil => rfl
    | cons r rs ih =>
      rw [List.length_cons, List.replicate_succ, thermal, if_neg G.mass.ne', ih, t0]
      simp [spread]

/-- Sum of the classical kinetic energies of a list of particles of one species. -/
noncomputable def kinetic (mass : ℝ) (vs : List (Vec3 ℝ)) : ℝ := (vs.map fun v => mass / 2 * v.length2).sum

theorem kin_eq {k : Cst} (G : k.Good) (T : ℝ) : k.mass / 2 * (2 * ratio k T * k.c) = k.q * T := by
  have := G.mass.ne'; have := G.c.ne'
  unfold ratio
  field_simp

/-- **C79**, classical range: the total kinetic energy is `q T` times the sum of the squares of the random numbers.
Random numbers with mean square `1/3` each therefore give the mean energy `q T` — two thirds of the `3/2 q T` of a gas
of temperature `T`. -/
theorem C79_rectangular_partial {k : Cst} (G : k.Good) {T : ℝ} (hT : 0 ≤ T) (h : 2 * ratio k T ≤ k.lim) (rs : List (ℝ × ℝ × ℝ)) :
    ∃ vs : List (Vec3 ℝ), rectangular k T rs = .ok (vs.map some) ∧
      kinetic k.mass vs = k.q * T * (rs.map fun r => r.1 ^ 2 + r.2.1 ^ 2 + r.2.2 ^ 2).sum := by
  obtain ⟨s, e, h0, e2⟩ := plain_slow G hT h
  refine ⟨rs.map fun r => ⟨r.1 * s, r.2.1 * s, r.2.2 * s⟩, ?_, ?_⟩
  · unfold rectangular
    rw [if_neg G.mass.ne', e, List.map_map]
    rfl
  · unfold kinetic
    induction rs with
    | nil => simp
    | cons r rs ih =>
      simp only [List.map_cons, List.sum_cons]
      rw [ih, spread_len2, e2]
      have := kin_eq G T
      linear_combination (r.1 ^ 2 + r.2.1 ^ 2 + r.2.2 ^ 2) * this

/-- The temperature read back from the mean energy is two thirds of the configured one, for every number of particles
and all random numbers with the mean square of a uniform number of `[-1, 1]`. -/
theorem C79_rectangular_fails {k : Cst} (G : k.Good) {T : ℝ} (hT : 0 < T) (h : 2 * ratio k T ≤ k.lim)
    (rs : List (ℝ × ℝ × ℝ)) (hn : rs ≠ [])
    (hm : (rs.map fun r => r.1 ^ 2 + r.2.1 ^ 2 + r.2.2 ^ 2).sum = (rs.length : ℝ) * (3 * (1 / 3))) :
    ∃ vs : List (Vec3 ℝ), rectangular k T rs = .ok (vs.map some) ∧
      kinetic k.mass vs < rs.length * (3 / 2 * (k.q * T)) := by
  obtain ⟨vs, e, e2⟩ := C79_rectangular_partial G hT.le h rs
  refine ⟨vs, e, ?_⟩
  rw [e2, hm]
  have : (0 : ℝ) < rs.length := by exact_mod_cast List.length_pos_iff.mpr hn
  have hq := G.q
  have p : 0 < (rs.length : ℝ) * (k.q * T) := by positivity
  nlinarith

/-- `eigen`: in the classical range every particle has the kinetic energy `3 q T`, twice that of a gas of
temperature `T`; all velocities are equal. -/
theorem C79_eigen_fails {k : Cst} (G : k.Good) {T : ℝ} (hT : 0 < T) (h : 2 * ratio k T ≤ k.lim) {n : Nat} (hn : 0 < n) :
    ∃ vs : List (Vec3 ℝ), eigen k T n = .ok (vs.map some) ∧ vs.length = n ∧ (∀ v ∈ vs, ∀ w ∈ vs, v = w) ∧
      kinetic k.mass vs = n * (3 * (k.q * T)) ∧ n * (3 / 2 * (k.q * T)) < kinetic k.mass vs := by
  obtain ⟨s, e, h0, e2⟩ := plain_slow G hT.le h
  have kin : kinetic k.mass (List.replicate n ⟨s, s, s⟩) = n * (3 * (k.q * T)) := by
    unfold kinetic
    rw [List.map_replicate, List.sum_replicate, nsmul_eq_mul]
    have := kin_eq G T
    rw [← e2] at this
    have l : (⟨s, s, s⟩ : Vec3 ℝ).length2 = 3 * s ^ 2 := by unfold Vec3.length2; ring
    rw [l, ← this]
    ring
  refine ⟨List.replicate n ⟨s, s, s⟩, ?_, by simp, ?_, kin, ?_⟩
  · unfold eigen
    rw [if_neg G.mass.ne', e, List.map_replicate]
    rfl
  · intro v hv w hw
    rw [List.eq_of_mem_replicate hv, List.eq_of_mem_replicate hw]
  · rw [kin]
    have : (0 : ℝ) < n := by exact_mod_cast hn
    have hq := G.q
    have p : 0 < (n : ℝ) * (k.q * T) := by positivity
    nlinarith

/-- **C79**, partial: within one of the two formulas a hotter species is faster. -/
theorem C79_hotter_partial {k : Cst} (G : k.Good) {T T' : ℝ} (hT : 0 ≤ T) (h : T ≤ T')
    (hb : 2 * ratio k T' ≤ k.lim ∨ k.lim < 2 * ratio k T) :
    ∃ s s', plainScale k T = some s ∧ plainScale k T' = some s' ∧ 0 ≤ s ∧ s ≤ s' := by
  have hc := G.c
  have hr := ratio_nonneg G hT
  have hrr : ratio k T ≤ ratio k T' := by
    have := G.mass; have := G.q
    unfold ratio
    gcongr
  rcases hb with hb | hb
  · obtain ⟨s, e, h0, e2⟩ := plain_slow G hT (by linarith)
    obtain ⟨s', e', h0', e2'⟩ := plain_slow G (hT.trans h) hb
    refine ⟨s, s', e, e', h0, ?_⟩
    apply le_of_sq_le_sq _ h0'
    rw [e2, e2']
    gcongr
  · obtain ⟨s, e, h0, e2⟩ := plain_fast G hb
    obtain ⟨s', e', h0', e2'⟩ := plain_fast G (T := T') (by linarith)
    refine ⟨s, s', e, e', h0.le, ?_⟩
    apply le_of_sq_le_sq _ h0'.le
    set u := 2 * ratio k T
    set u' := 2 * ratio k T'
    have hu0 : 0 ≤ u := by show 0 ≤ 2 * ratio k T; positivity
    have huu : u ^ 2 ≤ u' ^ 2 := by
      have : u ≤ u' := by show 2 * ratio k T ≤ 2 * ratio k T'; linarith
      gcongr
    have p : 0 < k.c ^ 2 + u ^ 2 := by positivity
    have p' : 0 < k.c ^ 2 + u' ^ 2 := by positivity
    have a : s ^ 2 = u ^ 2 * k.c ^ 2 / (k.c ^ 2 + u ^ 2) := by rw [eq_div_iff p.ne', e2]
    have a' : s' ^ 2 = u' ^ 2 * k.c ^ 2 / (k.c ^ 2 + u' ^ 2) := by rw [eq_div_iff p'.ne', e2']
    rw [a, a', div_le_div_iff₀ p p']
    have : 0 ≤ k.c ^ 2 * k.c ^ 2 := by positivity
    nlinarith

/-- At the limit the two formulas do not meet: a species may be slower than a colder one. -/
theorem C79_hotter_fails {k : Cst} (G : k.Good) :
    ∃ T T' : ℝ, 0 < T ∧ T < T' ∧ ∃ s s', plainScale k T = some s ∧ plainScale k T' = some s' ∧ 0 < s' ∧ s' < s := by
  have hc := G.c; have hl := G.lim; have hq := G.q; have hm := G.mass
  have r (x : ℝ) : ratio k (x * (k.mass * k.c) / k.q) = x := by
    unfold ratio; field_simp
  -- the ratio just at the limit and somewhat above
  set T := k.lim / 2 * (k.mass * k.c) / k.q with hT
  set T' := 3 / 5 * k.lim * (k.mass * k.c) / k.q with hT'
  have p : 0 < T := by positivity
  have lt : T < T' := by
    rw [hT, hT']
    have : k.lim / 2 < 3 / 5 * k.lim := by linarith
    gcongr
  obtain ⟨s, e, h0, e2⟩ := plain_slow G p.le (by rw [hT, r]; linarith)
  obtain ⟨s', e', h0', e2'⟩ := plain_fast G (T := T') (by rw [hT', r]; linarith)
  refine ⟨T, T', p, lt, s, s', e, e', h0', ?_⟩
  rw [hT, r] at e2
  rw [hT', r] at e2'
  refine lt_of_pow_lt_pow_left₀ 2 h0 ?_
  rw [e2]
  have h3 := G.lim3
  have hlc : k.lim ^ 2 * 3 < k.lim * k.c := by nlinarith
  have : s' ^ 2 * k.c ^ 2 ≤ (2 * (3 / 5 * k.lim)) ^ 2 * k.c ^ 2 := by
    rw [← e2']
    have : 0 ≤ s' ^ 2 * (2 * (3 / 5 * k.lim)) ^ 2 := by positivity
    linarith
  have hc2 : 0 < k.c ^ 2 := by positivity
  have := le_of_mul_le_mul_right this hc2
  nlinarith

/-! ### Concrete cases: `c = 10`, limit 1 -/

/-- Example constants. -/
noncomputable def exK : Cst := ⟨10, 1, 1, 1⟩
theorem exK_good : exK.Good := ⟨by norm_num [exK], by norm_num [exK], by norm_num [exK], by norm_num [exK], by norm_num [exK]⟩

/-- The program's own constants, electrons. -/
noncomputable def electron : Cst := ⟨3e8, 5e7, 1.6e-19, 9.1e-31⟩
theorem electron_good : electron.Good :=
  ⟨by norm_num [electron], by norm_num [electron], by norm_num [electron], by norm_num [electron], by norm_num [electron]⟩

example := C78_rectangular_partial electron_good (T := 100) (by norm_num) (by norm_num [ratio, electron]) [(1/2, -1, 1/3)]
  (by simp [InCube, abs_of_pos, abs_of_neg]; norm_num [abs_of_pos])
example := C78_rectangular_fails electron_good (T := 300000) (by norm_num) (by norm_num [ratio, electron]) (0.95, -0.95, 0.95)
  (by norm_num [abs_of_pos])
example := C78_eigen_partial electron_good (T := 100) (by norm_num) (by norm_num [ratio, electron]) 5
example := C78_eigen_fails electron_good (T := 200000) (by norm_num) (by norm_num [ratio, electron]) 5
example := C78_thermal_partial electron_good [1, 100, 2] (by intro e he; fin_cases he <;> norm_num [ratio, electron])
  [(1/2, -1, 1/3)] (by simp [InCube, abs_of_pos, abs_of_neg]; norm_num [abs_of_pos]) (by simp)
example := C78_thermal_fails electron_good (e := 1100000) (by norm_num) (by norm_num [ratio, electron]) (0.95, -0.95, 0.95)
  (by norm_num [abs_of_pos])
example := C78_too_few_energies_fails exK (by norm_num [exK]) [some 1] [(0, 0, 0), (1, 1, 1)] (by simp)
example := C78_negative_energy_fails electron_good (e := -1) (by norm_num) (0.95, -0.95, 0.95)
example := C79_cold electron_good 4 [(1, 1, 1), (0, 1/2, 1)]
example := C79_rectangular_fails electron_good (T := 1) (by norm_num) (by norm_num [ratio, electron]) [(1, 0, 0)] (by simp)
  (by norm_num)
example := C79_eigen_fails electron_good (T := 1) (by norm_num) (by norm_num [ratio, electron]) (n := 3) (by norm_num)
example := C79_hotter_partial electron_good (T := 1) (T' := 2) (by norm_num) (by norm_num)
  (Or.inl (by norm_num [ratio, electron]))
example := C79_hotter_fails electron_good

end Vel
end Pico
