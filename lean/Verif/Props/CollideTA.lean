import Verif.Lemmas.Collide
import Mathlib.Analysis.Real.Pi.Bounds
import Mathlib.Algebra.Order.BigOperators.Group.List

/-! Properties C38 (TA77S) and C39 (correction of the velocities). -/

set_option linter.unusedSectionVars false
set_option linter.unusedSimpArgs false
set_option linter.unusedVariables false

namespace Pico
namespace Coll

/-! ### C38: the collision of TA77S -/

theorem sin_cos_theta (delta : ℝ) : sinTheta delta ^ 2 + cosTheta delta ^ 2 = 1 ∧ 1 - cosTheta delta = 2 * delta ^ 2 / (1 + delta ^ 2) := by
  unfold sinTheta cosTheta
  have : 1 + delta ^ 2 ≠ 0 := by positivity
  constructor
  · field_simp
    ring
  · ring

theorem sinTheta_ne {delta : ℝ} (h : delta ≠ 0) : sinTheta delta ≠ 0 := by
  unfold sinTheta
  have : 0 < 1 + delta ^ 2 := by positivity
  exact div_ne_zero (mul_ne_zero two_ne_zero h) this.ne'

theorem cosTheta_lt {delta : ℝ} (h : delta ≠ 0) : 0 < 1 - cosTheta delta := by
  rw [(sin_cos_theta delta).2]
  positivity

/-- For equal weights both changes are the same vector. -/
theorem taCore_equal (pi ma mb delta phi dzeta : ℝ) (va vb : Vec3 ℝ) (h : va ≠ vb) :
    taCore pi ma mb 1 delta phi dzeta va vb =
      (va.add ((taDelta (va.sub vb) (sinTheta delta) (cosTheta delta) (Real.sin phi) (Real.cos phi)).smul (ma * mb / (ma + mb) / ma)),
       vb.add ((taDelta (va.sub vb) (sinTheta delta) (cosTheta delta) (Real.sin phi) (Real.cos phi)).smul (ma * mb / (ma + mb) / mb))) := by
  unfold taCore
  have hu : ¬ Real.sqrt ((va.sub vb).x ^ 2 + (va.sub vb).y ^ 2 + (va.sub vb).z ^ 2) = 0 := by
    intro h0
    have h1 := (Real.sqrt_eq_zero (by positivity)).mp h0
    have x := sq_nonneg (va.sub vb).x
    have y := sq_nonneg (va.sub vb).y
    have z := sq_nonneg (va.sub vb).z
    have ex : (va.sub vb).x = 0 := pow_eq_zero_iff (two_ne_zero) |>.mp (by linarith)
    have ey : (va.sub vb).y = 0 := pow_eq_zero_iff (two_ne_zero) |>.mp (by linarith)
    have ez : (va.sub vb).z = 0 := pow_eq_zero_iff (two_ne_zero) |>.mp (by linarith)
    unfold Vec3.sub Vec3.zip at ex ey ez
    apply h
    obtain ⟨a, b, c⟩ := va
    obtain ⟨a', b', c'⟩ := vb
    simp only [Vec3.mk.injEq] at *
    exact ⟨by linarith, by linarith, by linarith⟩
  simp only
  rw [if_neg hu]
  have s2 : (if Real.sqrt (1 * sinTheta delta ^ 2 + 1 * (1 - 1) * (1 - cosTheta delta) ^ 2) * sinTheta delta < 0 then
      -Real.sqrt (1 * sinTheta delta ^ 2 + 1 * (1 - 1) * (1 - cosTheta delta) ^ 2) else
      Real.sqrt (1 * sinTheta delta ^ 2 + 1 * (1 - 1) * (1 - cosTheta delta) ^ 2)) = sinTheta delta := by
    have : (1 * sinTheta delta ^ 2 + 1 * (1 - 1) * (1 - cosTheta delta) ^ 2) = sinTheta delta ^ 2 := by ring
    rw [this, Real.sqrt_sq_eq_abs]
    rcases lt_trichotomy (sinTheta delta) 0 with hn | hz | hp
    · rw [abs_of_neg hn, if_pos (by nlinarith)]; ring
    · rw [hz]; simp
    · rw [abs_of_pos hp, if_neg (by nlinarith)]
  have c2 : 1 - 1 * (1 - cosTheta delta) = cosTheta delta := by ring
  have p2 : phi + 2 * pi * (1 - Real.sqrt 1) * (1 - dzeta) = phi := by rw [Real.sqrt_one]; ring
  rw [s2, c2, p2]

/-- Component of the change across the relative velocity, or along it. -/
theorem taDelta_ne {u : Vec3 ℝ} {delta sP cP : ℝ} (hu : u.x ^ 2 + u.y ^ 2 + u.z ^ 2 ≠ 0) (hd : delta ≠ 0)
    (h : (u.x = 0 ∧ u.y = 0) ∨ sP ≠ 0) : taDelta u (sinTheta delta) (cosTheta delta) sP cP ≠ ⟨0, 0, 0⟩ := by
  intro e
  have l0 : Real.sqrt (u.x ^ 2 + u.y ^ 2 + u.z ^ 2) ≠ 0 := fun hh => hu ((Real.sqrt_eq_zero (by positivity)).mp hh)
  unfold taDelta at e
  simp only at e
  split at e
  · rename_i hup
    simp only [Vec3.mk.injEq] at e
    have := e.2.2
    have c := (cosTheta_lt hd).ne'
    rcases mul_eq_zero.mp this with h1 | h1
    · exact l0 (by linarith)
    · exact c h1
  · rename_i hup
    simp only [Vec3.mk.injEq] at e
    have hup' : u.x ^ 2 + u.y ^ 2 ≠ 0 := fun hh => hup (by rw [hh, Real.sqrt_zero])
    have sp : sP ≠ 0 := by
      rcases h with h | h
      · exact absurd (by rw [h.1, h.2]; ring) hup'
      · exact h
    set up := Real.sqrt (u.x ^ 2 + u.y ^ 2)
    have upsq : up ^ 2 = u.x ^ 2 + u.y ^ 2 := Real.sq_sqrt (by positivity)
    set l := Real.sqrt (u.x ^ 2 + u.y ^ 2 + u.z ^ 2)
    have k : l * sinTheta delta * sP * up = 0 := by
      have e1 := e.1
      have e2 := e.2.1
      have x : u.x / up * up = u.x := div_mul_cancel₀ _ hup
      have y : u.y / up * up = u.y := div_mul_cancel₀ _ hup
      apply mul_left_cancel₀ hup
      have : up * (l * sinTheta delta * sP * up) = u.x * (u.x * l * sinTheta delta * sP) / 1 + u.y * (u.y * l * sinTheta delta * sP) := by
        have : up * up = u.x ^ 2 + u.y ^ 2 := by rw [← upsq]; ring
        linear_combination l * sinTheta delta * sP * this
      rw [this]
      linear_combination u.x * up * e2 - u.y * up * e1
        - (u.x * u.z * sinTheta delta * cP) * y + (u.y * u.z * sinTheta delta * cP) * x
        - (u.x * l * sinTheta delta * sP) * x - (u.y * l * sinTheta delta * sP) * y
    rcases mul_eq_zero.mp k with k | k
    · rcases mul_eq_zero.mp k with k | k
      · rcases mul_eq_zero.mp k with k | k
        · exact l0 k
        · exact sinTheta_ne hd k
      · exact sp k
    · exact hup k

/-- C38 for TA77S: what happens to two equally heavy macroparticles: the momentum changes by twice the transferred one. -/
theorem C38_TA77S_change {pi ma mb delta phi dzeta : ℝ} {pa pb : Part ℝ} (hma : 0 < ma) (hmb : 0 < mb) (hw : 0 < pa.weight)
    (he : pa.weight = pb.weight) (hv : vel pa ≠ vel pb) :
    ∃ (qa qb : Part ℝ) (d : Vec3 ℝ), collideTA pi ma mb delta phi dzeta pa pb = .ok (qa, qb) ∧ OnlyVel pa qa ∧ OnlyVel pb qb ∧
      cMomentum ma (vel qa) = (cMomentum ma (vel pa)).add (d.smul (ma * mb / (ma + mb))) ∧
      cMomentum mb (vel qb) = (cMomentum mb (vel pb)).add (d.smul (ma * mb / (ma + mb))) ∧
      (delta ≠ 0 → Real.sin phi ≠ 0 ∨ ((vel pa).x = (vel pb).x ∧ (vel pa).y = (vel pb).y) → d ≠ ⟨0, 0, 0⟩) := by
  refine ⟨setVel pa (taCore pi ma mb 1 delta phi dzeta (vel pa) (vel pb)).1, setVel pb (taCore pi ma mb 1 delta phi dzeta (vel pa) (vel pb)).2,
    taDelta ((vel pa).sub (vel pb)) (sinTheta delta) (cosTheta delta) (Real.sin phi) (Real.cos phi), ?_, ⟨_, rfl⟩, ⟨_, rfl⟩, ?_, ?_, ?_⟩
  · unfold collideTA
    have n : ¬ (pb.weight = 0 ∨ pa.weight = 0 ∨ ma = 0 ∨ mb = 0 ∨ ma + mb = 0) := by
      rw [← he]
      rintro (h | h | h | h | h) <;> linarith
    rw [if_neg n, ← he, div_self hw.ne']
    simp only [le_refl, if_true]
  · rw [taCore_equal _ _ _ _ _ _ _ _ hv]
    unfold cMomentum Vec3.add Vec3.zip Vec3.smul
    have : ma + mb ≠ 0 := by positivity
    simp only [vel, setVel, Vec3.mk.injEq]
    refine ⟨by field_simp, by field_simp, by field_simp⟩
  · rw [taCore_equal _ _ _ _ _ _ _ _ hv]
    unfold cMomentum Vec3.add Vec3.zip Vec3.smul
    have : ma + mb ≠ 0 := by positivity
    simp only [vel, setVel, Vec3.mk.injEq]
    refine ⟨by field_simp, by field_simp, by field_simp⟩
  · intro hd h
    apply taDelta_ne _ hd
    · rcases h with h | ⟨h1, h2⟩
      · exact .inr h
      · left
        unfold Vec3.sub Vec3.zip
        exact ⟨sub_eq_zero.mpr h1, sub_eq_zero.mpr h2⟩
    · intro h0
      apply hv
      unfold Vec3.sub Vec3.zip at h0
      have x := sq_nonneg ((vel pa).x - (vel pb).x)
      have y := sq_nonneg ((vel pa).y - (vel pb).y)
      have z := sq_nonneg ((vel pa).z - (vel pb).z)
      dsimp only at h0
      have ex := pow_eq_zero_iff (two_ne_zero) |>.mp (by linarith : ((vel pa).x - (vel pb).x) ^ 2 = 0)
      have ey := pow_eq_zero_iff (two_ne_zero) |>.mp (by linarith : ((vel pa).y - (vel pb).y) ^ 2 = 0)
      have ez := pow_eq_zero_iff (two_ne_zero) |>.mp (by linarith : ((vel pa).z - (vel pb).z) ^ 2 = 0)
      generalize vel pa = a at *
      generalize vel pb = b at *
      obtain ⟨a1, a2, a3⟩ := a
      obtain ⟨b1, b2, b3⟩ := b
      simp only [Vec3.mk.injEq] at *
      exact ⟨by linarith, by linarith, by linarith⟩

/-- C38 fails for TA77S: for every pair of equally heavy macroparticles with different velocities, every deflection other than
zero and every azimuth outside of the plane of `z` and the relative velocity, the total momentum changes. -/
theorem C38_TA77S_fails {pi ma mb delta phi dzeta : ℝ} {pa pb : Part ℝ} (hma : 0 < ma) (hmb : 0 < mb) (hw : 0 < pa.weight)
    (he : pa.weight = pb.weight) (hv : vel pa ≠ vel pb) (hd : delta ≠ 0)
    (hphi : Real.sin phi ≠ 0 ∨ ((vel pa).x = (vel pb).x ∧ (vel pa).y = (vel pb).y)) :
    ∃ qa qb, collideTA pi ma mb delta phi dzeta pa pb = .ok (qa, qb) ∧
      (cMomentum ma (vel qa)).add (cMomentum mb (vel qb)) ≠ (cMomentum ma (vel pa)).add (cMomentum mb (vel pb)) := by
  obtain ⟨qa, qb, d, e, _, _, h1, h2, h3⟩ := C38_TA77S_change (pi := pi) (dzeta := dzeta) (delta := delta) (phi := phi) hma hmb hw he hv
  refine ⟨qa, qb, e, ?_⟩
  rw [h1, h2]
  intro h
  apply h3 hd hphi
  have m0 : 0 < ma * mb / (ma + mb) := by positivity
  unfold Vec3.add Vec3.zip Vec3.smul at h
  simp only [Vec3.mk.injEq] at h
  obtain ⟨d1, d2, d3⟩ := d
  simp only [Vec3.mk.injEq] at *
  refine ⟨?_, ?_, ?_⟩
  · have : d1 * (ma * mb / (ma + mb)) = 0 := by linarith [h.1]
    exact (mul_eq_zero.mp this).resolve_right m0.ne'
  · have : d2 * (ma * mb / (ma + mb)) = 0 := by linarith [h.2.1]
    exact (mul_eq_zero.mp this).resolve_right m0.ne'
  · have : d3 * (ma * mb / (ma + mb)) = 0 := by linarith [h.2.2]
    exact (mul_eq_zero.mp this).resolve_right m0.ne'

/-- ... and so does the energy, for example of two particles that move along `z`. -/
theorem C38_TA77S_energy_fails {pi ma mb delta phi dzeta a b : ℝ} {pa pb : Part ℝ} (hma : 0 < ma) (hmb : 0 < mb) (hw : 0 < pa.weight)
    (he : pa.weight = pb.weight) (ha : vel pa = ⟨0, 0, a⟩) (hb : vel pb = ⟨0, 0, b⟩) (hab : b < a) (hb0 : b ≠ 0) (hd : delta ≠ 0) :
    ∃ qa qb, collideTA pi ma mb delta phi dzeta pa pb = .ok (qa, qb) ∧
      cEnergy ma (vel qa) + cEnergy mb (vel qb) ≠ cEnergy ma (vel pa) + cEnergy mb (vel pb) := by
  have hv : vel pa ≠ vel pb := by rw [ha, hb]; intro h; injection h with _ _ h; linarith
  have n : ¬ (pb.weight = 0 ∨ pa.weight = 0 ∨ ma = 0 ∨ mb = 0 ∨ ma + mb = 0) := by
    rw [← he]
    rintro (h | h | h | h | h) <;> linarith
  have ok : collideTA pi ma mb delta phi dzeta pa pb =
      .ok (setVel pa (taCore pi ma mb 1 delta phi dzeta (vel pa) (vel pb)).1, setVel pb (taCore pi ma mb 1 delta phi dzeta (vel pa) (vel pb)).2) := by
    unfold collideTA
    rw [if_neg n, ← he, div_self hw.ne']
    simp only [le_refl, if_true]
  refine ⟨_, _, ok, ?_⟩
  rw [taCore_equal _ _ _ _ _ _ _ _ hv, ha, hb]
  have u : (⟨0, 0, a⟩ : Vec3 ℝ).sub ⟨0, 0, b⟩ = ⟨0, 0, a - b⟩ := by
    unfold Vec3.sub Vec3.zip; simp
  rw [u]
  have dl : taDelta ⟨0, 0, a - b⟩ (sinTheta delta) (cosTheta delta) (Real.sin phi) (Real.cos phi) =
      ⟨(a - b) * sinTheta delta * Real.cos phi, (a - b) * sinTheta delta * Real.sin phi, -(a - b) * (1 - cosTheta delta)⟩ := by
    unfold taDelta
    have : Real.sqrt ((0 : ℝ) ^ 2 + 0 ^ 2 + (a - b) ^ 2) = a - b := by
      rw [show (0 : ℝ) ^ 2 + 0 ^ 2 + (a - b) ^ 2 = (a - b) ^ 2 by ring, Real.sqrt_sq (by linarith)]
    simp only [this]
    rw [if_pos (by norm_num)]
  rw [dl]
  have tr := Real.sin_sq_add_cos_sq phi
  have st := (sin_cos_theta delta).1
  have cl := cosTheta_lt hd
  generalize Real.sin phi = sP at *
  generalize Real.cos phi = cP at *
  generalize sinTheta delta = sT at *
  generalize cosTheta delta = cT at *
  unfold cEnergy Vec3.add Vec3.zip Vec3.smul
  simp only [vel, setVel]
  intro h
  have sm : ma + mb ≠ 0 := by positivity
  have key : b * ((a - b) * (1 - cT)) = 0 := by
    have m0 : ma * mb / (ma + mb) ≠ 0 := by positivity
    apply mul_left_cancel₀ m0
    rw [mul_zero]
    have ma' := hma.ne'
    have mb' := hmb.ne'
    have e1 : ma * mb / (ma + mb) / ma = mb / (ma + mb) := by field_simp
    have e2 : ma * mb / (ma + mb) / mb = ma / (ma + mb) := by field_simp
    rw [e1, e2] at h
    have e3 : ma * mb / (ma + mb) = ma * (mb / (ma + mb)) := by ring
    have sum : mb / (ma + mb) + ma / (ma + mb) = 1 := by field_simp; ring
    have e4 : mb * (ma / (ma + mb)) = ma * (mb / (ma + mb)) := by ring
    rw [e3]
    generalize mb / (ma + mb) = x at *
    generalize ma / (ma + mb) = y at *
    have hy : y = 1 - x := by linarith
    subst hy
    have q : sT ^ 2 * (cP ^ 2 + sP ^ 2) = 1 - cT ^ 2 := by rw [show cP ^ 2 + sP ^ 2 = 1 by linarith]; linarith
    linear_combination (-1/2) * h + (1/4) * (a - b) ^ 2 * (ma * x ^ 2 + mb * (1 - x) ^ 2) * q + (1/2) * ((a - b) ^ 2 * (1 - cT) * (1 - x) - b * (a - b) * (1 - cT)) * e4
  rcases mul_eq_zero.mp key with h1 | h1
  · exact hb0 h1
  · rcases mul_eq_zero.mp h1 with h1 | h1
    · linarith
    · linarith

/-- Nor is the transferred momentum that of an elastic collision: a relative velocity `u` that changed by it would not keep
its length.  The difference of the squares is four times the product of the components of `u` along and across `z` and of
`sin theta cos theta cos phi`: it is zero only for velocities along or across `z`, without deflection, for a deflection by a
right angle or for an azimuth across the plane of `z` and `u`. -/
theorem C38_TA77S_length_fails {pi ma mb delta phi dzeta : ℝ} {pa pb : Part ℝ} (hma : 0 < ma) (hmb : 0 < mb) (hw : 0 < pa.weight)
    (he : pa.weight = pb.weight) (hxy : ¬ ((vel pa).x = (vel pb).x ∧ (vel pa).y = (vel pb).y)) :
    ∃ (qa qb : Part ℝ) (d : Vec3 ℝ), collideTA pi ma mb delta phi dzeta pa pb = .ok (qa, qb) ∧
      cMomentum ma (vel qa) = (cMomentum ma (vel pa)).add (d.smul (ma * mb / (ma + mb))) ∧
      (((vel pa).x - (vel pb).x + d.x) ^ 2 + ((vel pa).y - (vel pb).y + d.y) ^ 2 + ((vel pa).z - (vel pb).z + d.z) ^ 2) -
        (((vel pa).x - (vel pb).x) ^ 2 + ((vel pa).y - (vel pb).y) ^ 2 + ((vel pa).z - (vel pb).z) ^ 2) =
        4 * Real.sqrt (((vel pa).x - (vel pb).x) ^ 2 + ((vel pa).y - (vel pb).y) ^ 2) * ((vel pa).z - (vel pb).z) *
          ((2 * delta / (1 + delta ^ 2)) * ((1 - delta ^ 2) / (1 + delta ^ 2)) * Real.cos phi) := by
  have hv : vel pa ≠ vel pb := fun k => hxy ⟨by rw [k], by rw [k]⟩
  have n : ¬ (pb.weight = 0 ∨ pa.weight = 0 ∨ ma = 0 ∨ mb = 0 ∨ ma + mb = 0) := by
    rw [← he]
    rintro (h | h | h | h | h) <;> linarith
  refine ⟨setVel pa (taCore pi ma mb 1 delta phi dzeta (vel pa) (vel pb)).1, setVel pb (taCore pi ma mb 1 delta phi dzeta (vel pa) (vel pb)).2,
    taDelta ((vel pa).sub (vel pb)) (sinTheta delta) (cosTheta delta) (Real.sin phi) (Real.cos phi), ?_, ?_, ?_⟩
  · unfold collideTA
    rw [if_neg n, ← he, div_self hw.ne']
    simp only [le_refl, if_true]
  · rw [taCore_equal _ _ _ _ _ _ _ _ hv]
    unfold cMomentum Vec3.add Vec3.zip Vec3.smul
    have : ma + mb ≠ 0 := by positivity
    simp only [vel, setVel, Vec3.mk.injEq]
    refine ⟨by field_simp, by field_simp, by field_simp⟩
  · have cs : cosTheta delta = (1 - delta ^ 2) / (1 + delta ^ 2) := by
      unfold cosTheta
      have : (1 : ℝ) + delta ^ 2 ≠ 0 := by positivity
      field_simp
      ring
    have ss : sinTheta delta = 2 * delta / (1 + delta ^ 2) := rfl
    rw [← cs, ← ss]
    have st := (sin_cos_theta delta).1
    have tr := Real.sin_sq_add_cos_sq phi
    generalize sinTheta delta = sT at *
    generalize cosTheta delta = cT at *
    generalize Real.sin phi = sP at *
    generalize Real.cos phi = cP at *
    generalize vel pa = a at *
    generalize vel pb = b at *
    obtain ⟨a1, a2, a3⟩ := a
    obtain ⟨b1, b2, b3⟩ := b
    dsimp only at hxy ⊢
    unfold Vec3.sub Vec3.zip taDelta
    dsimp only
    generalize e1 : a1 - b1 = x at *
    generalize e2 : a2 - b2 = y at *
    generalize a3 - b3 = z at *
    have pos : 0 < x ^ 2 + y ^ 2 := by
      by_contra k
      have hx := sq_nonneg x
      have hy := sq_nonneg y
      have x0 : x = 0 := pow_eq_zero_iff two_ne_zero |>.mp (by linarith)
      have y0 : y = 0 := pow_eq_zero_iff two_ne_zero |>.mp (by linarith)
      exact hxy ⟨by linarith, by linarith⟩
    have up0 : Real.sqrt (x ^ 2 + y ^ 2) ≠ 0 := (Real.sqrt_pos.mpr pos).ne'
    have hup : Real.sqrt (x ^ 2 + y ^ 2) ^ 2 = x ^ 2 + y ^ 2 := Real.sq_sqrt pos.le
    have hl : Real.sqrt (x ^ 2 + y ^ 2 + z ^ 2) ^ 2 = x ^ 2 + y ^ 2 + z ^ 2 := Real.sq_sqrt (by positivity)
    rw [if_neg up0]
    dsimp only
    generalize Real.sqrt (x ^ 2 + y ^ 2 + z ^ 2) = l at *
    generalize Real.sqrt (x ^ 2 + y ^ 2) = up at *
    have hX : (x / up) * up = x := div_mul_cancel₀ _ up0
    have hY : (y / up) * up = y := div_mul_cancel₀ _ up0
    generalize x / up = X at *
    generalize y / up = Y at *
    subst hX
    subst hY
    have hXY : X ^ 2 + Y ^ 2 = 1 := by
      apply mul_left_cancel₀ (pow_ne_zero 2 up0)
      linear_combination -hup
    have hl' : l ^ 2 = up ^ 2 + z ^ 2 := by linear_combination hl + up ^ 2 * hXY
    linear_combination ((up * cT + z * sT * cP) ^ 2 + l ^ 2 * sT ^ 2 * sP ^ 2 - up ^ 2) * hXY + sT ^ 2 * sP ^ 2 * hl' +
      (up ^ 2 + z ^ 2) * sT ^ 2 * tr + (up ^ 2 + z ^ 2) * st

/-- Non-vacuity. -/
def exA : Part ℝ := ⟨1, 0, 1, 1, 0, 1, 3, 0, 4, 2, 0, 1, 1, 0, 0⟩
def exB : Part ℝ := ⟨1, 0, 1, 1, 0, 1, 0, 1, 4, 2, 0, 1, 1, 0, 0⟩
example := C38_TA77S_fails (pi := Real.pi) (ma := 1) (mb := 1836) (delta := 1/10) (phi := Real.pi / 2) (dzeta := 1/3) (pa := exA) (pb := exB)
  (by norm_num) (by norm_num) (by norm_num [exA]) rfl (by simp [vel, exA, exB]) (by norm_num) (.inl (by simp))
example := C38_TA77S_length_fails (pi := Real.pi) (ma := 1) (mb := 1836) (delta := 1/10) (phi := 1) (dzeta := 1/3) (pa := exA)
  (pb := ⟨1, 0, 1, 1, 0, 1, 0, 0, 2, 2, 0, 1, 1, 0, 0⟩) (by norm_num) (by norm_num) (by norm_num [exA]) rfl (by simp [vel, exA])
example := C38_TA77S_energy_fails (pi := Real.pi) (ma := 1) (mb := 1836) (delta := 1/10) (phi := 1) (dzeta := 1/3) (a := 4) (b := 2)
  (pa := ⟨1, 0, 1, 1, 0, 1, 0, 0, 4, 2, 0, 1, 1, 0, 0⟩) (pb := ⟨1, 0, 1, 1, 0, 1, 0, 0, 2, 2, 0, 1, 1, 0, 0⟩)
  (by norm_num) (by norm_num) (by norm_num) rfl rfl rfl (by norm_num) (by norm_num) (by norm_num)

/-! ### C39: the correction -/

theorem wsum_eq (f : Part ℝ → ℝ) (l : List (Part ℝ)) : wsum f l = (l.map f).sum := by
  have : ∀ (l : List (Part ℝ)) (s : ℝ), l.foldl (fun s p => s + f p) s = s + (l.map f).sum := by
    intro l
    induction l with
    | nil => intro s; simp
    | cons a l ih => intro s; rw [List.foldl_cons, ih, List.map_cons, List.sum_cons]; ring
  rw [wsum, this, zero_add]

/-- Sum of a quadratic expression in one component. -/
theorem sum_quad (f : Part ℝ → ℝ) (k0 k1 k2 : ℝ) (l : List (Part ℝ)) :
    (l.map fun p => p.weight * (k0 + k1 * f p + k2 * f p ^ 2)).sum =
      k0 * (l.map fun p => p.weight).sum + k1 * (l.map fun p => p.weight * f p).sum + k2 * (l.map fun p => p.weight * f p ^ 2).sum := by
  induction l with
  | nil => simp
  | cons a l ih => simp only [List.map_cons, List.sum_cons, ih]; ring

theorem sum_smul (c : ℝ) (f : Part ℝ → ℝ) (l : List (Part ℝ)) : (l.map fun p => c * f p).sum = c * (l.map f).sum := by
  induction l with
  | nil => simp
  | cons a l ih => simp only [List.map_cons, List.sum_cons, ih]; ring

theorem sum_add (f g : Part ℝ → ℝ) (l : List (Part ℝ)) : (l.map fun p => f p + g p).sum = (l.map f).sum + (l.map g).sum := by
  induction l with
  | nil => simp
  | cons a l ih => simp only [List.map_cons, List.sum_cons, ih]; ring

theorem sum_pos_of {f : Part ℝ → ℝ} {l : List (Part ℝ)} (h : ∀ p ∈ l, 0 ≤ f p) {q : Part ℝ} (hq : q ∈ l) (hp : 0 < f q) : 0 < (l.map f).sum := by
  induction l with
  | nil => simp at hq
  | cons a l ih =>
    rw [List.map_cons, List.sum_cons]
    have t : 0 ≤ (l.map f).sum := List.sum_nonneg (by
      intro x hx
      obtain ⟨p, hp, rfl⟩ := List.mem_map.mp hx
      exact h p (List.mem_cons_of_mem _ hp))
    rcases List.mem_cons.mp hq with rfl | hq
    · linarith
    · have := ih (fun p hp => h p (List.mem_cons_of_mem _ hp)) hq
      linarith [h a List.mem_cons_self]

/-- Weighted sums of a list: amount, momentum per mass, square. -/
noncomputable def W (l : List (Part ℝ)) : ℝ := (l.map fun p => p.weight).sum
noncomputable def S1 (f : Part ℝ → ℝ) (l : List (Part ℝ)) : ℝ := (l.map fun p => p.weight * f p).sum
noncomputable def S2 (f : Part ℝ → ℝ) (l : List (Part ℝ)) : ℝ := (l.map fun p => p.weight * f p ^ 2).sum

theorem lMomentum_eq (m : ℝ) (l : List (Part ℝ)) :
    lMomentum m l = ⟨m * S1 (·.velR) l, m * S1 (·.velPhi) l, m * S1 (·.velZ) l⟩ := by
  unfold lMomentum S1
  simp only [← sum_smul, mul_assoc]

theorem lEnergy_eq (m : ℝ) (l : List (Part ℝ)) : lEnergy m l = m / 2 * (S2 (·.velR) l + S2 (·.velPhi) l + S2 (·.velZ) l) := by
  unfold lEnergy S2
  rw [← sum_add, ← sum_add, ← sum_smul]
  congr 1
  apply List.map_congr_left
  intro p _
  ring

/-- Spread of the velocities around the mean, times the amount. -/
noncomputable def spread (l : List (Part ℝ)) : ℝ :=
  (S2 (·.velR) l + S2 (·.velPhi) l + S2 (·.velZ) l) * W l - (S1 (·.velR) l ^ 2 + S1 (·.velPhi) l ^ 2 + S1 (·.velZ) l ^ 2)

/-- Two particles with different velocities. -/
def Mixed (l : List (Part ℝ)) : Prop := ∃ p ∈ l, ∃ q ∈ l, vel p ≠ vel q

theorem W_pos {l : List (Part ℝ)} (hw : ∀ p ∈ l, 0 < p.weight) (hl : l ≠ []) : 0 < W l := by
  obtain ⟨q, hq⟩ := List.exists_mem_of_ne_nil l hl
  exact sum_pos_of (fun p hp => (hw p hp).le) hq (hw q hq)

/-- Sum of the squared distances to a velocity. -/
theorem spread_sum (l : List (Part ℝ)) (a b c : ℝ) :
    (l.map fun p => p.weight * ((p.velR - a) ^ 2 + (p.velPhi - b) ^ 2 + (p.velZ - c) ^ 2)).sum =
      (S2 (·.velR) l + S2 (·.velPhi) l + S2 (·.velZ) l) - 2 * (a * S1 (·.velR) l + b * S1 (·.velPhi) l + c * S1 (·.velZ) l) +
        (a ^ 2 + b ^ 2 + c ^ 2) * W l := by
  unfold S1 S2 W
  induction l with
  | nil => simp
  | cons p l ih => simp only [List.map_cons, List.sum_cons, ih]; ring

theorem spread_pos {l : List (Part ℝ)} (hw : ∀ p ∈ l, 0 < p.weight) (h : Mixed l) : 0 < spread l := by
  obtain ⟨p, hp, q, hq, hne⟩ := h
  have W0 : 0 < W l := W_pos hw (List.ne_nil_of_mem hp)
  set a := S1 (·.velR) l / W l with ha
  set b := S1 (·.velPhi) l / W l with hb
  set c := S1 (·.velZ) l / W l with hc
  have key := spread_sum l a b c
  have ra : a * W l = S1 (·.velR) l := div_mul_cancel₀ _ W0.ne'
  have rb : b * W l = S1 (·.velPhi) l := div_mul_cancel₀ _ W0.ne'
  have rc : c * W l = S1 (·.velZ) l := div_mul_cancel₀ _ W0.ne'
  have pos : 0 < (l.map fun p => p.weight * ((p.velR - a) ^ 2 + (p.velPhi - b) ^ 2 + (p.velZ - c) ^ 2)).sum := by
    have nn : ∀ p ∈ l, 0 ≤ p.weight * ((p.velR - a) ^ 2 + (p.velPhi - b) ^ 2 + (p.velZ - c) ^ 2) :=
      fun p hp => mul_nonneg (hw p hp).le (by positivity)
    by_cases e : vel p = ⟨a, b, c⟩
    · apply sum_pos_of nn hq
      apply mul_pos (hw q hq)
      by_contra hn
      apply hne
      rw [e]
      have x := sq_nonneg (q.velR - a)
      have y := sq_nonneg (q.velPhi - b)
      have z := sq_nonneg (q.velZ - c)
      have ex := pow_eq_zero_iff (two_ne_zero) |>.mp (by linarith : (q.velR - a) ^ 2 = 0)
      have ey := pow_eq_zero_iff (two_ne_zero) |>.mp (by linarith : (q.velPhi - b) ^ 2 = 0)
      have ez := pow_eq_zero_iff (two_ne_zero) |>.mp (by linarith : (q.velZ - c) ^ 2 = 0)
      unfold vel
      simp only [Vec3.mk.injEq]
      exact ⟨by linarith, by linarith, by linarith⟩
    · apply sum_pos_of nn hp
      apply mul_pos (hw p hp)
      by_contra hn
      apply e
      have x := sq_nonneg (p.velR - a)
      have y := sq_nonneg (p.velPhi - b)
      have z := sq_nonneg (p.velZ - c)
      have ex := pow_eq_zero_iff (two_ne_zero) |>.mp (by linarith : (p.velR - a) ^ 2 = 0)
      have ey := pow_eq_zero_iff (two_ne_zero) |>.mp (by linarith : (p.velPhi - b) ^ 2 = 0)
      have ez := pow_eq_zero_iff (two_ne_zero) |>.mp (by linarith : (p.velZ - c) ^ 2 = 0)
      unfold vel
      simp only [Vec3.mk.injEq]
      exact ⟨by linarith, by linarith, by linarith⟩
  rw [key] at pos
  unfold spread
  have := mul_pos pos W0
  generalize S1 (·.velR) l = A at *
  generalize S1 (·.velPhi) l = B at *
  generalize S1 (·.velZ) l = C at *
  generalize W l = w at *
  rw [← ra, ← rb, ← rc] at *
  nlinarith

theorem collect_eq (m : ℝ) (l : List (Part ℝ)) : collectTotals m l = ⟨W l, lMomentum m l, lEnergy m l⟩ := by
  unfold collectTotals lMomentum lEnergy W
  simp only [wsum_eq, Totals.mk.injEq, Vec3.mk.injEq, true_and]
  refine ⟨⟨?_, ?_, ?_⟩, ?_⟩ <;> (congr 1; apply List.map_congr_left; intro p _; ring)

/-- The numerator and denominator of `alpha` in terms of the spread. -/
theorem alpha_parts {m : ℝ} {l : List (Part ℝ)} (W0 : W l ≠ 0) (hm : m ≠ 0) :
    lEnergy m l - W l * m * ((m * S1 (·.velR) l / (W l * m)) ^ 2 + (m * S1 (·.velPhi) l / (W l * m)) ^ 2 + (m * S1 (·.velZ) l / (W l * m)) ^ 2) / 2 =
      m / 2 * (spread l / W l) := by
  rw [lEnergy_eq]
  unfold spread
  field_simp

theorem W_congr {l l' : List (Part ℝ)} (h : l'.map (·.weight) = l.map (·.weight)) : W l' = W l := congrArg List.sum h

/-- `correct` in closed form. -/
theorem correct_eq {m : ℝ} {before l : List (Part ℝ)} (hm : 0 < m) (W0 : 0 < W before) (hw : l.map (·.weight) = before.map (·.weight)) :
    correct m (collectTotals m before) l =
      if spread l = 0 ∨ spread before = 0 then l
      else l.map fun p => setVel p
        ⟨S1 (·.velR) before / W before + Real.sqrt (let a := spread before / spread l; if a < 0 then -a else a) * (p.velR - S1 (·.velR) l / W l),
         S1 (·.velPhi) before / W before + Real.sqrt (let a := spread before / spread l; if a < 0 then -a else a) * (p.velPhi - S1 (·.velPhi) l / W l),
         S1 (·.velZ) before / W before + Real.sqrt (let a := spread before / spread l; if a < 0 then -a else a) * (p.velZ - S1 (·.velZ) l / W l)⟩ := by
  have Wl : W l = W before := W_congr hw
  have m0 := hm.ne'
  have w0 := W0.ne'
  have mom := lMomentum_eq m before
  have mr : wsum (fun p => m * p.weight * p.velR) l = m * S1 (·.velR) l := by
    rw [wsum_eq, S1, ← sum_smul]; simp only [mul_assoc]
  have mphi : wsum (fun p => m * p.weight * p.velPhi) l = m * S1 (·.velPhi) l := by
    rw [wsum_eq, S1, ← sum_smul]; simp only [mul_assoc]
  have mz : wsum (fun p => m * p.weight * p.velZ) l = m * S1 (·.velZ) l := by
    rw [wsum_eq, S1, ← sum_smul]; simp only [mul_assoc]
  have en : wsum (fun p => m * p.weight * (p.velR * p.velR + p.velPhi * p.velPhi + p.velZ * p.velZ) / 2) l = lEnergy m l := by
    rw [wsum_eq, lEnergy]; congr 1; apply List.map_congr_left; intro p _; ring
  have n1 := alpha_parts (l := before) w0 m0
  have n2 := alpha_parts (l := l) (by rw [Wl]; exact w0) m0
  rw [Wl] at n2
  unfold correct
  rw [collect_eq, mom]
  simp only [mr, mphi, mz, en]
  have back : ∀ x y : ℝ, m * x / (W before * m) + (m * y - m * x) / (W before * m) = m * y / (W before * m) := fun x y => by
    rw [← add_div]; congr 1; ring
  have num : lEnergy m before - W before * m * (m * S1 (·.velR) before / (W before * m) * (m * S1 (·.velR) before / (W before * m)) +
      m * S1 (·.velPhi) before / (W before * m) * (m * S1 (·.velPhi) before / (W before * m)) +
      m * S1 (·.velZ) before / (W before * m) * (m * S1 (·.velZ) before / (W before * m))) / 2 = m / 2 * (spread before / W before) := by
    rw [← n1]; ring
  have den : lEnergy m before + (lEnergy m l - lEnergy m before) - W before * m *
      ((m * S1 (·.velR) before / (W before * m) + (m * S1 (·.velR) l - m * S1 (·.velR) before) / (W before * m)) ^ 2 +
       (m * S1 (·.velPhi) before / (W before * m) + (m * S1 (·.velPhi) l - m * S1 (·.velPhi) before) / (W before * m)) ^ 2 +
       (m * S1 (·.velZ) before / (W before * m) + (m * S1 (·.velZ) l - m * S1 (·.velZ) before) / (W before * m)) ^ 2) / 2 =
      m / 2 * (spread l / W before) := by
    rw [back, back, back, ← n2]; ring
  rw [num, den]
  have mt : W before * m ≠ 0 := mul_ne_zero w0 m0
  by_cases h1 : spread l = 0
  · rw [if_pos (.inr (.inl (by rw [h1]; simp))), if_pos (.inl h1)]
  by_cases h2 : spread before = 0
  · rw [if_pos (.inr (.inr (by rw [h2]; simp))), if_pos (.inr h2)]
  have k1 : m / 2 * (spread l / W before) ≠ 0 := mul_ne_zero (by positivity) (div_ne_zero h1 w0)
  have k2 : m / 2 * (spread before / W before) ≠ 0 := mul_ne_zero (by positivity) (div_ne_zero h2 w0)
  have hn1 : ¬ (W before * m = 0 ∨ m / 2 * (spread l / W before) = 0 ∨ m / 2 * (spread before / W before) = 0) := by
    rintro (h | h | h)
    · exact mt h
    · exact k1 h
    · exact k2 h
  have hn2 : ¬ (spread l = 0 ∨ spread before = 0) := by
    rintro (h | h)
    · exact h1 h
    · exact h2 h
  rw [if_neg hn1, if_neg hn2]
  have al : m / 2 * (spread before / W before) / (m / 2 * (spread l / W before)) = spread before / spread l := by field_simp
  rw [al]
  have a0 : (if spread before / spread l < 0 then -(spread before / spread l) else spread before / spread l) ≠ 0 := by
    have : spread before / spread l ≠ 0 := div_ne_zero h2 h1
    split
    · exact neg_ne_zero.mpr this
    · exact this
  rw [if_neg a0]
  have q : ∀ x : ℝ, m * x / (W before * m) = x / W before := fun x => by field_simp
  have sh : ∀ v x y : ℝ, v - m * x / (W before * m) - (m * y - m * x) / (W before * m) = v - y / W before := fun v x y => by
    have := back x y
    rw [q y] at this
    linarith
  simp only [sh]
  simp only [q, Wl]

/-- C39, where it holds: if before the collisions not all particles of the species in the cell had the same velocity, and
neither do they after them, the correction restores momentum and energy exactly and changes nothing but velocities.  `after`
is any list with the weights of `before`. -/
theorem C39_partial {mass : ℝ} {before after : List (Part ℝ)} (hm : 0 < mass) (hw : ∀ p ∈ before, 0 < p.weight)
    (hsame : after.map (·.weight) = before.map (·.weight)) (hb : Mixed before) (ha : Mixed after) :
    lMomentum mass (correct mass (collectTotals mass before) after) = lMomentum mass before ∧
    lEnergy mass (correct mass (collectTotals mass before) after) = lEnergy mass before ∧
    List.Forall₂ OnlyVel after (correct mass (collectTotals mass before) after) := by
  obtain ⟨p0, hp0, _⟩ := hb
  have hb : Mixed before := ⟨p0, hp0, ‹_›⟩
  have W0 : 0 < W before := W_pos hw (List.ne_nil_of_mem hp0)
  have hw' : ∀ p ∈ after, 0 < p.weight := by
    intro p hp
    have : p.weight ∈ before.map (·.weight) := hsame ▸ List.mem_map_of_mem hp
    obtain ⟨q, hq, e⟩ := List.mem_map.mp this
    rw [← e]; exact hw q hq
  have sb := spread_pos hw hb
  have sa := spread_pos hw' ha
  have Wl : W after = W before := W_congr hsame
  rw [correct_eq hm W0 hsame, if_neg (by rintro (h | h) <;> linarith)]
  have apos : 0 < spread before / spread after := div_pos sb sa
  simp only [if_neg (not_lt.mpr apos.le)]
  set al := Real.sqrt (spread before / spread after) with hal
  have alsq : al ^ 2 = spread before / spread after := Real.sq_sqrt apos.le
  have wa := (Wl ▸ W0 : 0 < W after).ne'
  -- sums of the corrected list, per component
  have comp1 : ∀ (f : Part ℝ → ℝ) (k : ℝ), (after.map fun p => p.weight * (k + al * (f p - S1 f after / W after))).sum = k * W before := by
    intro f k
    have e : (fun p : Part ℝ => p.weight * (k + al * (f p - S1 f after / W after))) =
        fun p => p.weight * ((k - al * (S1 f after / W after)) + al * f p + 0 * f p ^ 2) := by funext p; ring
    rw [e, sum_quad]
    change _ * W after + al * S1 f after + 0 * S2 f after = _
    rw [← Wl]
    field_simp
    ring
  have comp2 : ∀ (f : Part ℝ → ℝ) (k : ℝ), (after.map fun p => p.weight * (k + al * (f p - S1 f after / W after)) ^ 2).sum =
      k ^ 2 * W before + al ^ 2 * (S2 f after - S1 f after ^ 2 / W after) := by
    intro f k
    have e : (fun p : Part ℝ => p.weight * (k + al * (f p - S1 f after / W after)) ^ 2) =
        fun p => p.weight * ((k - al * (S1 f after / W after)) ^ 2 + 2 * (k - al * (S1 f after / W after)) * al * f p + al ^ 2 * f p ^ 2) := by
      funext p; ring
    rw [e, sum_quad]
    change _ * W after + _ * S1 f after + al ^ 2 * S2 f after = _
    rw [← Wl]
    field_simp
    ring
  refine ⟨?_, ?_, ?_⟩
  · rw [lMomentum_eq, lMomentum_eq]
    have c1 := comp1 (·.velR) (S1 (·.velR) before / W before)
    have c2 := comp1 (·.velPhi) (S1 (·.velPhi) before / W before)
    have c3 := comp1 (·.velZ) (S1 (·.velZ) before / W before)
    rw [div_mul_cancel₀ _ W0.ne'] at c1 c2 c3
    simp only [Vec3.mk.injEq]
    refine ⟨?_, ?_, ?_⟩
    · congr 1
      refine Eq.trans ?_ c1
      have e : ∀ g : Part ℝ → Vec3 ℝ, S1 (·.velR) (after.map fun p => setVel p (g p)) = (after.map fun p => p.weight * (g p).x).sum := by
        intro g; unfold S1; rw [List.map_map]; rfl
      rw [e]
    · congr 1
      refine Eq.trans ?_ c2
      have e : ∀ g : Part ℝ → Vec3 ℝ, S1 (·.velPhi) (after.map fun p => setVel p (g p)) = (after.map fun p => p.weight * (g p).y).sum := by
        intro g; unfold S1; rw [List.map_map]; rfl
      rw [e]
    · congr 1
      refine Eq.trans ?_ c3
      have e : ∀ g : Part ℝ → Vec3 ℝ, S1 (·.velZ) (after.map fun p => setVel p (g p)) = (after.map fun p => p.weight * (g p).z).sum := by
        intro g; unfold S1; rw [List.map_map]; rfl
      rw [e]
  · rw [lEnergy_eq, lEnergy_eq]
    have c1 := comp2 (·.velR) (S1 (·.velR) before / W before)
    have c2 := comp2 (·.velPhi) (S1 (·.velPhi) before / W before)
    have c3 := comp2 (·.velZ) (S1 (·.velZ) before / W before)
    congr 1
    have e1 : ∀ g : Part ℝ → Vec3 ℝ, S2 (·.velR) (after.map fun p => setVel p (g p)) = (after.map fun p => p.weight * (g p).x ^ 2).sum := by
      intro g; unfold S2; rw [List.map_map]; rfl
    have e2 : ∀ g : Part ℝ → Vec3 ℝ, S2 (·.velPhi) (after.map fun p => setVel p (g p)) = (after.map fun p => p.weight * (g p).y ^ 2).sum := by
      intro g; unfold S2; rw [List.map_map]; rfl
    have e3 : ∀ g : Part ℝ → Vec3 ℝ, S2 (·.velZ) (after.map fun p => setVel p (g p)) = (after.map fun p => p.weight * (g p).z ^ 2).sum := by
      intro g; unfold S2; rw [List.map_map]; rfl
    rw [e1, e2, e3]
    dsimp only
    rw [c1, c2, c3, alsq]
    have s1 : spread after = (S2 (·.velR) after + S2 (·.velPhi) after + S2 (·.velZ) after) * W before - (S1 (·.velR) after ^ 2 + S1 (·.velPhi) after ^ 2 + S1 (·.velZ) after ^ 2) := by
      unfold spread; rw [Wl]
    have s2 : spread before = (S2 (·.velR) before + S2 (·.velPhi) before + S2 (·.velZ) before) * W before - (S1 (·.velR) before ^ 2 + S1 (·.velPhi) before ^ 2 + S1 (·.velZ) before ^ 2) := rfl
    rw [Wl]
    generalize spread after = sa' at *
    generalize spread before = sb' at *
    have w0 := W0.ne'
    have sa0 := sa.ne'
    have f1 : S2 (·.velR) after - S1 (·.velR) after ^ 2 / W before + (S2 (·.velPhi) after - S1 (·.velPhi) after ^ 2 / W before) +
        (S2 (·.velZ) after - S1 (·.velZ) after ^ 2 / W before) = sa' / W before := by
      rw [s1]; field_simp; ring
    have f2 : (S1 (·.velR) before / W before) ^ 2 * W before + (S1 (·.velPhi) before / W before) ^ 2 * W before + (S1 (·.velZ) before / W before) ^ 2 * W before +
        sb' / W before = S2 (·.velR) before + S2 (·.velPhi) before + S2 (·.velZ) before := by
      rw [s2]; field_simp; ring
    have f3 : sb' / sa' * (sa' / W before) = sb' / W before := by field_simp
    linear_combination sb' / sa' * f1 + f2 + f3
  · rw [List.forall₂_map_right_iff]
    exact List.forall₂_same.mpr fun p _ => ⟨_, rfl⟩

theorem cold_spread {l : List (Part ℝ)} {v : Vec3 ℝ} (h : ∀ p ∈ l, vel p = v) : spread l = 0 := by
  have key : ∀ l : List (Part ℝ), (∀ p ∈ l, vel p = v) →
      S1 (·.velR) l = v.x * W l ∧ S1 (·.velPhi) l = v.y * W l ∧ S1 (·.velZ) l = v.z * W l ∧
      S2 (·.velR) l = v.x ^ 2 * W l ∧ S2 (·.velPhi) l = v.y ^ 2 * W l ∧ S2 (·.velZ) l = v.z ^ 2 * W l := by
    intro l
    induction l with
    | nil => intro _; simp [S1, S2, W]
    | cons p l ih =>
      intro h
      obtain ⟨a, b, c, d, e, f⟩ := ih (fun q hq => h q (List.mem_cons_of_mem _ hq))
      have hp := h p List.mem_cons_self
      subst hp
      unfold S1 S2 W at *
      simp only [List.map_cons, List.sum_cons, a, b, c, d, e, f]
      unfold vel
      dsimp only
      refine ⟨by ring, by ring, by ring, by ring, by ring, by ring⟩
  obtain ⟨a, b, c, d, e, f⟩ := key l h
  unfold spread
  rw [a, b, c, d, e, f]
  ring

/-- C39 fails for a species whose particles in the cell had a common velocity before the collisions - in particular for a
single particle: nothing is corrected, whatever the collisions did. -/
theorem C39_cold_fails {mass : ℝ} {before after : List (Part ℝ)} {v : Vec3 ℝ} (hm : 0 < mass) (hw : ∀ p ∈ before, 0 < p.weight) (hne : before ≠ [])
    (hsame : after.map (·.weight) = before.map (·.weight)) (h : ∀ p ∈ before, vel p = v) :
    correct mass (collectTotals mass before) after = after := by
  rw [correct_eq hm (W_pos hw hne) hsame, if_pos (.inr (cold_spread h))]

/-- C39 and C38 together: one electron and one ion, equally weighted, alone in a cell.  The collision step of TA77S with its
correction changes the total momentum. -/
theorem C39_pair_fails {pi ma mb delta phi dzeta : ℝ} {pa pb : Part ℝ} (hma : 0 < ma) (hmb : 0 < mb) (hw : 0 < pa.weight)
    (he : pa.weight = pb.weight) (hv : vel pa ≠ vel pb) (hd : delta ≠ 0)
    (hphi : Real.sin phi ≠ 0 ∨ ((vel pa).x = (vel pb).x ∧ (vel pa).y = (vel pb).y)) :
    ∃ qa qb, collideTA pi ma mb delta phi dzeta pa pb = .ok (qa, qb) ∧
      (lMomentum ma (correct ma (collectTotals ma [pa]) [qa])).add (lMomentum mb (correct mb (collectTotals mb [pb]) [qb])) ≠
        (lMomentum ma [pa]).add (lMomentum mb [pb]) := by
  obtain ⟨qa, qb, d, e, ⟨v, rfl⟩, ⟨u, rfl⟩, _⟩ := C38_TA77S_change (pi := pi) (dzeta := dzeta) (delta := delta) (phi := phi) hma hmb hw he hv
  obtain ⟨qa', qb', e', hne⟩ := C38_TA77S_fails (pi := pi) (dzeta := dzeta) hma hmb hw he hv hd hphi
  rw [e] at e'
  injection e' with e'
  injection e' with e1 e2
  subst e1 e2
  refine ⟨_, _, e, ?_⟩
  rw [C39_cold_fails (v := vel pa) (before := [pa]) (after := [setVel pa v]) hma (by simpa using hw) (by simp) rfl (by simp),
    C39_cold_fails (v := vel pb) (before := [pb]) (after := [setVel pb u]) hmb (by simpa [← he] using hw) (by simp) rfl (by simp)]
  intro h
  apply hne
  unfold lMomentum cMomentum Vec3.add Vec3.zip at *
  simp only [List.map_cons, List.map_nil, List.sum_cons, List.sum_nil, add_zero, vel, setVel, Vec3.mk.injEq] at *
  rw [← he] at h
  have w0 := hw.ne'
  refine ⟨?_, ?_, ?_⟩
  · apply mul_left_cancel₀ w0; linarith [h.1]
  · apply mul_left_cancel₀ w0; linarith [h.2.1]
  · apply mul_left_cancel₀ w0; linarith [h.2.2]

/-- Non-vacuity. -/
example := C39_partial (mass := 2) (before := [exA, exB]) (after := [setVel exA ⟨1, 1, 1⟩, setVel exB ⟨0, 2, -5⟩]) (by norm_num)
  (by simp [exA, exB]) rfl ⟨exA, by simp, exB, by simp, by simp [vel, exA, exB]⟩
  ⟨setVel exA ⟨1, 1, 1⟩, by simp, setVel exB ⟨0, 2, -5⟩, by simp, by simp [vel, setVel]⟩

end Coll
end Pico
