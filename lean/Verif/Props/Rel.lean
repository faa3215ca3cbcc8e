import Verif.Lemmas.Rel

/-! Properties of the relativistic conversions. -/

namespace Pico
namespace Rel

/-- C68: below the speed of light, velocity to momentum per mass and back gives the velocity. -/
theorem C68_velocity_round_trip {c : ℝ} (hc : 0 < c) (v : Vec3 ℝ) (hv : v.length2 < c ^ 2) :
    ∃ γ, lorenzFactor c v.length2 = .ok γ ∧ 1 ≤ γ ∧
      (v.smul γ).smul (lorenzFactorInv c (v.smul γ).length2) = v := by
  obtain ⟨γ, e, hg, h⟩ := lorenz_lt hc hv
  refine ⟨γ, e, gamma_ge_one hc (len2_nonneg v) hg h, ?_⟩
  have k := inv_of_lorenz hc (len2_nonneg v) hg h
  rw [smul_smul', len2_smul, mul_comm γ, k, smul_one']

/-- C68: every momentum per mass belongs to a speed below that of light, and comes back from it. -/
theorem C68_momentum_round_trip {c : ℝ} (hc : 0 < c) (u : Vec3 ℝ) :
    (u.smul (lorenzFactorInv c u.length2)).length2 < c ^ 2 ∧
    ∃ γ, lorenzFactor c (u.smul (lorenzFactorInv c u.length2)).length2 = .ok γ ∧
      (u.smul (lorenzFactorInv c u.length2)).smul γ = u := by
  rw [len2_smul]
  refine ⟨inv_lt hc (len2_nonneg u), ?_⟩
  obtain ⟨γ, e, h⟩ := lorenz_of_inv hc (len2_nonneg u)
  refine ⟨γ, e, ?_⟩
  rw [smul_smul', mul_comm, h, smul_one']

/-- C68: the Lorentz factor is the one of special relativity. -/
theorem C68_value {c v2 : ℝ} (hc : 0 < c) (h : v2 < c ^ 2) :
    ∃ γ, lorenzFactor c v2 = .ok γ ∧ 0 < γ ∧ 1 / γ ^ 2 = 1 - v2 / c ^ 2 := by
  obtain ⟨γ, e, hg, h1⟩ := lorenz_lt hc h
  refine ⟨γ, e, hg, ?_⟩
  have := hg.ne'
  have := hc.ne'
  rw [div_eq_iff (by positivity), eq_comm]
  field_simp
  linear_combination h1

/-- C68: speeds above `c` are rejected by the factor and by everything that uses it. -/
theorem C68_too_fast {c mass lim : ℝ} (hc : 0 < c) (v : Vec3 ℝ) (h : c ^ 2 < v.length2) :
    lorenzFactor c v.length2 = .fatal ∧ momentum c mass v = .fatal ∧ momentum0 c mass v = .fatal ∧
    (lim < v.length2 → energy c lim mass v.length2 = .fatal) := by
  have e := lorenz_gt hc h
  refine ⟨e, ?_, ?_, fun hl => ?_⟩
  · unfold momentum; split
    · rfl
    · rw [e]; rfl
  · unfold momentum0; split
    · rfl
    · rw [e]; rfl
  · unfold energy
    rw [if_pos hl, e]; rfl

/-- C68: the momentum functions reject a mass of zero. -/
theorem C68_massless_rejected (c : ℝ) (v : Vec3 ℝ) : momentum c 0 v = .fatal ∧ momentum0 c 0 v = .fatal :=
  ⟨if_pos rfl, if_pos rfl⟩

/-- C68: momentum and energy over `c` form a four-vector of length `m c`. -/
theorem C68_four_momentum {c mass : ℝ} (hc : 0 < c) (hm : mass ≠ 0) (v : Vec3 ℝ) (hv : v.length2 < c ^ 2) :
    ∃ p0 p, momentum0 c mass v = .ok p0 ∧ momentum c mass v = .ok p ∧ p0 ^ 2 - p.length2 = (mass * c) ^ 2 := by
  obtain ⟨γ, e, hg, h⟩ := lorenz_lt hc hv
  refine ⟨γ * mass * c, (v.smul γ).smul mass, ?_, ?_, ?_⟩
  · unfold momentum0; rw [if_neg hm, e, Res.ok_bind]
  · unfold momentum; rw [if_neg hm, e, Res.ok_bind]
  · rw [len2_smul, len2_smul]; linear_combination mass ^ 2 * h

/-- `(gamma - 1) c^2` is at least the classical value. -/
theorem rel_ge_classic {c v2 γ : ℝ} (hc : 0 < c) (h0 : 0 ≤ v2) (hg : 0 < γ) (h : γ ^ 2 * (c ^ 2 - v2) = c ^ 2) :
    1/2 * v2 ≤ (γ - 1) * c ^ 2 := by
  have g1 := gamma_ge_one hc h0 hg h
  have hc2 : 0 < c ^ 2 := by positivity
  -- v2 = c^2 (1 - 1/γ^2)
  have e : γ ^ 2 * v2 = (γ ^ 2 - 1) * c ^ 2 := by linear_combination -h
  have k : 0 ≤ γ ^ 2 * ((γ - 1) * c ^ 2 - 1/2 * v2) := by
    have : γ ^ 2 * ((γ - 1) * c ^ 2 - 1/2 * v2) = (γ - 1) * (γ ^ 2 - (γ + 1) / 2) * c ^ 2 := by
      linear_combination (-1/2) * e
    rw [this]
    have : 0 ≤ γ ^ 2 - (γ + 1) / 2 := by nlinarith
    have : 0 ≤ γ - 1 := by linarith
    positivity
  by_contra hn
  have : γ ^ 2 * ((γ - 1) * c ^ 2 - 1/2 * v2) < 0 :=
    mul_neg_of_pos_of_neg (by positivity) (by linarith)
  linarith

theorem gamma_mono {c a b γ δ : ℝ} (hab : a < b) (hb : b < c ^ 2) (hg : 0 < γ) (hd : 0 < δ)
    (h : γ ^ 2 * (c ^ 2 - a) = c ^ 2) (h' : δ ^ 2 * (c ^ 2 - b) = c ^ 2) : γ < δ := by
  by_contra hn
  have : δ ^ 2 ≤ γ ^ 2 := by nlinarith
  have : δ ^ 2 * (c ^ 2 - b) < γ ^ 2 * (c ^ 2 - a) := by
    have h1 : δ ^ 2 * (c ^ 2 - b) < δ ^ 2 * (c ^ 2 - a) := mul_lt_mul_of_pos_left (by linarith) (by positivity)
    have h2 : δ ^ 2 * (c ^ 2 - a) ≤ γ ^ 2 * (c ^ 2 - a) := mul_le_mul_of_nonneg_right this (by linarith)
    linarith
  linarith

/-- C28: the kinetic energy is defined below `c`, not negative, zero only at rest, and increases strictly with
the speed, across the switch between the classical and the relativistic formula too. -/
theorem C28_energy {c lim mass : ℝ} (hc : 0 < c) (hm : 0 < mass) :
    (∀ a, 0 ≤ a → a < c ^ 2 → ∃ e, energy c lim mass a = .ok e ∧ 0 ≤ e ∧ (e = 0 → a = 0)) ∧
    (∀ a b e f, 0 ≤ a → a < b → b < c ^ 2 → energy c lim mass a = .ok e → energy c lim mass b = .ok f → e < f) := by
  constructor
  · intro a h0 hlt
    unfold energy
    split
    · obtain ⟨γ, e, hg, h⟩ := lorenz_lt hc hlt
      refine ⟨(γ - 1) * mass * (c * c), by rw [e, Res.ok_bind], ?_, ?_⟩
      · have := gamma_ge_one hc h0 hg h
        have : 0 ≤ γ - 1 := by linarith
        positivity
      · intro he
        have := rel_ge_classic hc h0 hg h
        have e0 : (γ - 1) * c ^ 2 = 0 := by
          apply mul_left_cancel₀ hm.ne'
          linear_combination he
        linarith
    · refine ⟨_, rfl, by positivity, fun he => ?_⟩
      rcases mul_eq_zero.mp he with k | k
      · exfalso; have : (0 : ℝ) < 1/2 * mass := by positivity
        linarith
      · exact k
  · intro a b e f h0 hab hb ea eb
    obtain ⟨γ, e1, hg, h⟩ := lorenz_lt hc (hab.trans hb)
    obtain ⟨δ, e2, hd, h'⟩ := lorenz_lt hc hb
    unfold energy at ea eb
    split at eb
    · rw [e2, Res.ok_bind] at eb
      cases eb
      split at ea
      · rw [e1, Res.ok_bind] at ea
        cases ea
        have := gamma_mono hab hb hg hd h h'
        have : (γ - 1) * (mass * (c * c)) < (δ - 1) * (mass * (c * c)) :=
          mul_lt_mul_of_pos_right (by linarith) (by positivity)
        linarith
      · cases ea
        have k := rel_ge_classic hc (h0.trans hab.le) hd h'
        have k2 : mass * (1/2 * b) ≤ mass * ((δ - 1) * c ^ 2) := mul_le_mul_of_nonneg_left k hm.le
        have k3 : mass * (1/2 * a) < mass * (1/2 * b) := mul_lt_mul_of_pos_left (by linarith) hm
        have e5 : (δ - 1) * mass * (c * c) = mass * ((δ - 1) * c ^ 2) := by ring
        rw [e5]
        linarith
    · next hl =>
      cases eb
      rw [if_neg (by intro hk; exact hl (lt_trans hk hab))] at ea
      cases ea
      have : mass * a < mass * b := mul_lt_mul_of_pos_left hab hm
      linarith

/-- C28: above the switch the energy computed from the momentum is the energy computed from the velocity. -/
theorem C28_energy_from_momentum {c lim mass : ℝ} (hc : 0 < c) (hm : 0 < mass) (v : Vec3 ℝ) (hv : v.length2 < c ^ 2)
    (hl : lim < v.length2) :
    ∃ p e, momentum c mass v = .ok p ∧ energy c lim mass v.length2 = .ok e ∧ energyM c lim mass p.length2 = .ok e := by
  obtain ⟨γ, eg, hg, h⟩ := lorenz_lt hc hv
  have g1 := gamma_ge_one hc (len2_nonneg v) hg h
  refine ⟨(v.smul γ).smul mass, (γ - 1) * mass * (c * c), ?_, ?_, ?_⟩
  · unfold momentum; rw [if_neg hm.ne', eg, Res.ok_bind]
  · unfold energy; rw [if_pos hl, eg, Res.ok_bind]
  · rw [len2_smul, len2_smul]
    unfold energyM
    have hv0 := len2_nonneg v
    have hge : v.length2 ≤ γ ^ 2 * v.length2 := by
      have : 1 ≤ γ ^ 2 := by nlinarith
      nlinarith
    have hm2 : 0 < mass ^ 2 := by positivity
    rw [if_pos]
    · dsimp only
      have e : mass ^ 2 * (γ ^ 2 * v.length2) * (c * c) + (mass * (c * c)) ^ 2 = (γ * mass * (c * c)) ^ 2 := by
        linear_combination -mass ^ 2 * c ^ 2 * h
      rw [e, Real.sqrt_sq (by positivity)]
      congr 1
      ring
    · show lim * mass * mass < mass ^ 2 * (γ ^ 2 * v.length2)
      nlinarith

/-- C28 fails: between the two switches the energy computed from the momentum is not the energy computed from
the velocity. -/
theorem C28_energy_gap {c lim mass : ℝ} (hc : 0 < c) (hm : 0 < mass) (v : Vec3 ℝ) (hv : v.length2 < c ^ 2)
    (hl : v.length2 ≤ lim) (hg : ∀ γ, lorenzFactor c v.length2 = .ok γ → lim < γ ^ 2 * v.length2) (hn : 0 < v.length2) :
    ∃ p e f, momentum c mass v = .ok p ∧ energy c lim mass v.length2 = .ok e ∧ energyM c lim mass p.length2 = .ok f ∧
      e < f := by
  obtain ⟨γ, eg, hgp, h⟩ := lorenz_lt hc hv
  have hgap := hg γ eg
  refine ⟨(v.smul γ).smul mass, 1/2 * mass * v.length2, (γ - 1) * mass * (c * c), ?_, ?_, ?_, ?_⟩
  · unfold momentum; rw [if_neg hm.ne', eg, Res.ok_bind]
  · unfold energy; rw [if_neg (by linarith)]
  · rw [len2_smul, len2_smul]
    unfold energyM
    have hm2 : 0 < mass ^ 2 := by positivity
    rw [if_pos]
    · dsimp only
      have e : mass ^ 2 * (γ ^ 2 * v.length2) * (c * c) + (mass * (c * c)) ^ 2 = (γ * mass * (c * c)) ^ 2 := by
        linear_combination -mass ^ 2 * c ^ 2 * h
      rw [e, Real.sqrt_sq (by positivity)]
      congr 1
      ring
    · show lim * mass * mass < mass ^ 2 * (γ ^ 2 * v.length2)
      nlinarith
  · have g1 := gamma_ge_one hc hn.le hgp h
    have g2 : 1 < γ := by
      rcases g1.lt_or_eq with k | k
      · exact k
      · rw [← k] at h; nlinarith
    have e : γ ^ 2 * v.length2 = (γ ^ 2 - 1) * c ^ 2 := by linear_combination -h
    have : γ ^ 2 * ((γ - 1) * c ^ 2 - 1/2 * v.length2) = (γ - 1) * (γ ^ 2 - (γ + 1) / 2) * c ^ 2 := by
      linear_combination (-1/2) * e
    have k1 : 0 < γ ^ 2 - (γ + 1) / 2 := by nlinarith
    have k2 : 0 < γ - 1 := by linarith
    have k3 : 0 < γ ^ 2 * ((γ - 1) * c ^ 2 - 1/2 * v.length2) := by rw [this]; positivity
    have k4 := (mul_pos_iff_of_pos_left (by positivity : (0 : ℝ) < γ ^ 2)).mp k3
    have : mass * (1/2 * v.length2) < mass * ((γ - 1) * c ^ 2) := mul_lt_mul_of_pos_left (by linarith) hm
    linarith

/-- C28 fails: the energy functions do not reject a mass of zero; one of them divides by it. -/
theorem C28_massless_energy (c lim : ℝ) :
    (∀ v2, v2 ≤ lim → energy c lim 0 v2 = .ok 0) ∧ energyM c lim 0 0 = .ub := by
  constructor
  · intro v2 h
    unfold energy
    rw [if_neg (by linarith)]
    simp
  · unfold energyM
    rw [if_neg (by simp), if_pos rfl]

/-! ### Concrete cases: `c = 5`, speed 3 gives the factor 5/4 -/

theorem ex_factor : lorenzFactor 5 9 = .ok (5/4) := by
  obtain ⟨γ, e, hg, h⟩ := lorenz_lt (c := 5) (v2 := 9) (by norm_num) (by norm_num)
  rw [e, sq_inj hg (by norm_num : (0 : ℝ) < 5/4) (by linarith)]

example := C68_velocity_round_trip (c := 5) (by norm_num) ⟨1, 2, -2⟩ (by norm_num [Vec3.length2])
example := C68_momentum_round_trip (c := 5) (by norm_num) ⟨100, 20, -7⟩
example := C68_too_fast (c := 5) (mass := 1) (lim := 1) (by norm_num) ⟨4, 4, 0⟩ (by norm_num [Vec3.length2])
example := C68_four_momentum (c := 5) (mass := 2) (by norm_num) (by norm_num) ⟨1, 2, -2⟩ (by norm_num [Vec3.length2])
example := C28_energy_from_momentum (c := 5) (lim := 4) (mass := 2) (by norm_num) (by norm_num) ⟨1, 2, -2⟩
  (by norm_num [Vec3.length2]) (by norm_num [Vec3.length2])
example : energy 5 4 2 9 = .ok (25/2) := by
  unfold energy
  rw [if_pos (by norm_num), ex_factor, Res.ok_bind]
  norm_num
example := C28_energy_gap (c := 5) (lim := 10) (mass := 2) (by norm_num) (by norm_num) ⟨1, 2, -2⟩
  (by norm_num [Vec3.length2]) (by norm_num [Vec3.length2])
  (by intro γ h
      have e : (⟨1, 2, -2⟩ : Vec3 ℝ).length2 = 9 := by norm_num [Vec3.length2]
      rw [e, ex_factor] at h
      cases h
      rw [e]; norm_num)
  (by norm_num [Vec3.length2])

end Rel
end Pico
